import Verif.Model.LookupStructures

/-!
# MD5 as in RFC 1321

Written from the text of the RFC, without reference to the code.
-/

namespace Bm.Md5.Spec

/-- Little-endian number. -/
def leNat : Bytes → Nat
  | [] => 0
  | x :: xs => x.toNat + 256 * leNat xs

/-- The `n` low-order bytes of a number, least significant first. -/
def leBytes : Nat → Nat → Bytes
  | 0, _ => []
  | n + 1, x => UInt8.ofNat (x % 256) :: leBytes n (x / 256)

/-- The number of zero bytes after the byte 128, so that with the length (8 bytes) the total is a multiple of 64 (RFC
1321, 3.1). -/
def zeros (n : Nat) : Nat := (119 - n % 64) % 64

/-- Padding bits and length in bits modulo 2^64 (RFC 1321, 3.1 and 3.2). -/
def pad (m : Bytes) : Bytes := m ++ [128] ++ List.replicate (zeros m.length) 0 ++ leBytes 8 (8 * m.length)

/-- The auxiliary functions of the four rounds (RFC 1321, 3.4). -/
def aux (round : Nat) (x y z : BitVec 32) : BitVec 32 :=
  match round with
  | 0 => (x &&& y) ||| (~~~x &&& z)
  | 1 => (x &&& z) ||| (y &&& ~~~z)
  | 2 => x ^^^ y ^^^ z
  | _ => y ^^^ (x ||| ~~~z)

/-- The table `T`: the integer part of 4294967296 times abs(sin(i)), i in radians from 1 to 64 (RFC 1321, 3.4). -/
def T : List Nat := [
  0xd76aa478, 0xe8c7b756, 0x242070db, 0xc1bdceee, 0xf57c0faf, 0x4787c62a, 0xa8304613, 0xfd469501,
  0x698098d8, 0x8b44f7af, 0xffff5bb1, 0x895cd7be, 0x6b901122, 0xfd987193, 0xa679438e, 0x49b40821,
  0xf61e2562, 0xc040b340, 0x265e5a51, 0xe9b6c7aa, 0xd62f105d, 0x02441453, 0xd8a1e681, 0xe7d3fbc8,
  0x21e1cde6, 0xc33707d6, 0xf4d50d87, 0x455a14ed, 0xa9e3e905, 0xfcefa3f8, 0x676f02d9, 0x8d2a4c8a,
  0xfffa3942, 0x8771f681, 0x6d9d6122, 0xfde5380c, 0xa4beea44, 0x4bdecfa9, 0xf6bb4b60, 0xbebfbc70,
  0x289b7ec6, 0xeaa127fa, 0xd4ef3085, 0x04881d05, 0xd9d4d039, 0xe6db99e5, 0x1fa27cf8, 0xc4ac5665,
  0xf4292244, 0x432aff97, 0xab9423a7, 0xfc93a039, 0x655b59c3, 0x8f0ccc92, 0xffeff47d, 0x85845dd1,
  0x6fa87e4f, 0xfe2ce6e0, 0xa3014314, 0x4e0811a1, 0xf7537e82, 0xbd3af235, 0x2ad7d2bb, 0xeb86d391]

/-- The word used at step `i` (from 0). -/
def wordIx (i : Nat) : Nat :=
  match i / 16 with
  | 0 => i % 16
  | 1 => (5 * i + 1) % 16
  | 2 => (3 * i + 5) % 16
  | _ => (7 * i) % 16

/-- The rotation at step `i`. -/
def shift (i : Nat) : Nat :=
  match i / 16 with
  | 0 => [7, 12, 17, 22].getD (i % 4) 0
  | 1 => [5, 9, 14, 20].getD (i % 4) 0
  | 2 => [4, 11, 16, 23].getD (i % 4) 0
  | _ => [6, 10, 15, 21].getD (i % 4) 0

/-- The four words A, B, C, D. -/
abbrev Words := BitVec 32 × BitVec 32 × BitVec 32 × BitVec 32

/-- One operation: A becomes B + ((A + f(B,C,D) + X[k] + T[i]) <<< s), and the words take turns. -/
def op (X : Nat → BitVec 32) (w : Words) (i : Nat) : Words :=
  let (a, b, c, d) := w
  (d, b + (a + aux (i / 16) b c d + X (wordIx i) + BitVec.ofNat 32 (T.getD i 0)).rotateLeft (shift i), b, c)

/-- Processing of a block of 16 words. -/
def compress (w : Words) (X : Nat → BitVec 32) : Words :=
  let (a, b, c, d) := w
  let (a', b', c', d') := (List.range 64).foldl (op X) w
  (a + a', b + b', c + c', d + d')

/-- Word `k` of block `i` of a message. -/
def word (m : Bytes) (i k : Nat) : BitVec 32 := BitVec.ofNat 32 (leNat ((m.drop (64 * i + 4 * k)).take 4))

/-- The words A, B, C, D after all the blocks of a message whose length is a multiple of 64. -/
def chain (m : Bytes) : Words :=
  (List.range (m.length / 64)).foldl (fun w i => compress w (word m i)) (0x67452301, 0xefcdab89, 0x98badcfe, 0x10325476)

/-- MD5. -/
def md5 (m : Bytes) : Bytes :=
  let (a, b, c, d) := chain (pad m)
  leBytes 4 a.toNat ++ leBytes 4 b.toNat ++ leBytes 4 c.toNat ++ leBytes 4 d.toNat

/-- The bytes of an ASCII string. -/
def ascii (s : String) : Bytes := s.toList.map fun c => UInt8.ofNat c.toNat

/-! The test suite of the RFC (A.5). -/
example : md5 (ascii "") = [0xd4, 0x1d, 0x8c, 0xd9, 0x8f, 0x00, 0xb2, 0x04, 0xe9, 0x80, 0x09, 0x98, 0xec, 0xf8, 0x42, 0x7e] := by
  decide +kernel
example : md5 (ascii "a") = [0x0c, 0xc1, 0x75, 0xb9, 0xc0, 0xf1, 0xb6, 0xa8, 0x31, 0xc3, 0x99, 0xe2, 0x69, 0x77, 0x26, 0x61] := by
  decide +kernel
example : md5 (ascii "abc") = [0x90, 0x01, 0x50, 0x98, 0x3c, 0xd2, 0x4f, 0xb0, 0xd6, 0x96, 0x3f, 0x7d, 0x28, 0xe1, 0x7f, 0x72] := by
  decide +kernel
example : md5 (ascii "message digest") =
    [0xf9, 0x6b, 0x69, 0x7d, 0x7c, 0xb7, 0x93, 0x8d, 0x52, 0x5a, 0x2f, 0x31, 0xaa, 0xf1, 0x61, 0xd0] := by
  decide +kernel
example : md5 (ascii "abcdefghijklmnopqrstuvwxyz") =
    [0xc3, 0xfc, 0xd3, 0xd7, 0x61, 0x92, 0xe4, 0x00, 0x7d, 0xfb, 0x49, 0x6c, 0xca, 0x67, 0xe1, 0x3b] := by
  decide +kernel
example : md5 (ascii "ABCDEFGHIJKLMNOPQRSTUVWXYZabcdefghijklmnopqrstuvwxyz0123456789") =
    [0xd1, 0x74, 0xab, 0x98, 0xd2, 0x77, 0xd9, 0xf5, 0xa5, 0x61, 0x1c, 0x2c, 0x9f, 0x41, 0x9d, 0x9f] := by
  decide +kernel
example : md5 (ascii "12345678901234567890123456789012345678901234567890123456789012345678901234567890") =
    [0x57, 0xed, 0xf4, 0xa2, 0x2b, 0xe3, 0xc9, 0x55, 0xac, 0x49, 0xda, 0x2e, 0x21, 0x07, 0xb6, 0x7a] := by
  decide +kernel

end Bm.Md5.Spec
