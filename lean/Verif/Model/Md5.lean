import Verif.Model.LookupStructures

/-!
# MD5

Transcribes `/repo/src/bm_sim/md5.c` (used when the switch is built without OpenSSL) as compiled for x86, where `SET` and
`GET` read words of the data in place (the array `block` of the context is then not used).  `unsigned int` is `UInt32`,
`unsigned long` is `UInt64`.  Reading past the end of the data and writing past the end of the buffer is `none`.
-/

namespace Bm.Md5

/-- The basic functions.  `/repo/src/bm_sim/md5.c:51-55`. -/
inductive Fn | F | G | H | H2 | I
  deriving DecidableEq, Repr

/-- `F`, `G`, `H`, `H2` and `I`.  `/repo/src/bm_sim/md5.c:51-55`. -/
def Fn.ap : Fn → UInt32 → UInt32 → UInt32 → UInt32
  | .F, x, y, z => z ^^^ (x &&& (y ^^^ z))
  | .G, x, y, z => y ^^^ (z &&& (x ^^^ y))
  | .H, x, y, z => (x ^^^ y) ^^^ z
  | .H2, x, y, z => x ^^^ (y ^^^ z)
  | .I, x, y, z => y ^^^ (x ||| ~~~z)

/-- The variables `a`, `b`, `c` and `d`.  `/repo/src/bm_sim/md5.c:96`. -/
structure Regs where
  a : UInt32
  b : UInt32
  c : UInt32
  d : UInt32
  deriving DecidableEq, Repr

/-- The order of the variables in a use of `STEP`. -/
inductive Order | abcd | dabc | cdab | bcda
  deriving DecidableEq, Repr

/-- New value of the first variable of `STEP`.  `/repo/src/bm_sim/md5.c:60-63`. -/
def mix (f : Fn) (a b c d x t s : UInt32) : UInt32 :=
  let a := a + (f.ap b c d + x + t)
  let a := (a <<< s) ||| ((a &&& 0xffffffff) >>> (32 - s))
  a + b

/-- `STEP`.  `/repo/src/bm_sim/md5.c:60-63`. -/
def step (f : Fn) (o : Order) (x t s : UInt32) (r : Regs) : Regs :=
  match o with
  | .abcd => { r with a := mix f r.a r.b r.c r.d x t s }
  | .dabc => { r with d := mix f r.d r.a r.b r.c x t s }
  | .cdab => { r with c := mix f r.c r.d r.a r.b x t s }
  | .bcda => { r with b := mix f r.b r.c r.d r.a x t s }

/-- The uses of `STEP`: function, order of the variables, word, constant and rotation.
`/repo/src/bm_sim/md5.c:112-182`. -/
def rows : List (Fn × Order × Nat × UInt32 × UInt32) := [
  (.F, .abcd, 0, 0xd76aa478, 7), (.F, .dabc, 1, 0xe8c7b756, 12), (.F, .cdab, 2, 0x242070db, 17), (.F, .bcda, 3, 0xc1bdceee, 22),
  (.F, .abcd, 4, 0xf57c0faf, 7), (.F, .dabc, 5, 0x4787c62a, 12), (.F, .cdab, 6, 0xa8304613, 17), (.F, .bcda, 7, 0xfd469501, 22),
  (.F, .abcd, 8, 0x698098d8, 7), (.F, .dabc, 9, 0x8b44f7af, 12), (.F, .cdab, 10, 0xffff5bb1, 17), (.F, .bcda, 11, 0x895cd7be, 22),
  (.F, .abcd, 12, 0x6b901122, 7), (.F, .dabc, 13, 0xfd987193, 12), (.F, .cdab, 14, 0xa679438e, 17), (.F, .bcda, 15, 0x49b40821, 22),
  (.G, .abcd, 1, 0xf61e2562, 5), (.G, .dabc, 6, 0xc040b340, 9), (.G, .cdab, 11, 0x265e5a51, 14), (.G, .bcda, 0, 0xe9b6c7aa, 20),
  (.G, .abcd, 5, 0xd62f105d, 5), (.G, .dabc, 10, 0x02441453, 9), (.G, .cdab, 15, 0xd8a1e681, 14), (.G, .bcda, 4, 0xe7d3fbc8, 20),
  (.G, .abcd, 9, 0x21e1cde6, 5), (.G, .dabc, 14, 0xc33707d6, 9), (.G, .cdab, 3, 0xf4d50d87, 14), (.G, .bcda, 8, 0x455a14ed, 20),
  (.G, .abcd, 13, 0xa9e3e905, 5), (.G, .dabc, 2, 0xfcefa3f8, 9), (.G, .cdab, 7, 0x676f02d9, 14), (.G, .bcda, 12, 0x8d2a4c8a, 20),
  (.H, .abcd, 5, 0xfffa3942, 4), (.H2, .dabc, 8, 0x8771f681, 11), (.H, .cdab, 11, 0x6d9d6122, 16), (.H2, .bcda, 14, 0xfde5380c, 23),
  (.H, .abcd, 1, 0xa4beea44, 4), (.H2, .dabc, 4, 0x4bdecfa9, 11), (.H, .cdab, 7, 0xf6bb4b60, 16), (.H2, .bcda, 10, 0xbebfbc70, 23),
  (.H, .abcd, 13, 0x289b7ec6, 4), (.H2, .dabc, 0, 0xeaa127fa, 11), (.H, .cdab, 3, 0xd4ef3085, 16), (.H2, .bcda, 6, 0x04881d05, 23),
  (.H, .abcd, 9, 0xd9d4d039, 4), (.H2, .dabc, 12, 0xe6db99e5, 11), (.H, .cdab, 15, 0x1fa27cf8, 16), (.H2, .bcda, 2, 0xc4ac5665, 23),
  (.I, .abcd, 0, 0xf4292244, 6), (.I, .dabc, 7, 0x432aff97, 10), (.I, .cdab, 14, 0xab9423a7, 15), (.I, .bcda, 5, 0xfc93a039, 21),
  (.I, .abcd, 12, 0x655b59c3, 6), (.I, .dabc, 3, 0x8f0ccc92, 10), (.I, .cdab, 10, 0xffeff47d, 15), (.I, .bcda, 1, 0x85845dd1, 21),
  (.I, .abcd, 8, 0x6fa87e4f, 6), (.I, .dabc, 15, 0xfe2ce6e0, 10), (.I, .cdab, 6, 0xa3014314, 15), (.I, .bcda, 13, 0x4e0811a1, 21),
  (.I, .abcd, 4, 0xf7537e82, 6), (.I, .dabc, 11, 0xbd3af235, 10), (.I, .cdab, 2, 0x2ad7d2bb, 15), (.I, .bcda, 9, 0xeb86d391, 21)]

/-- `SET` and `GET`: a word of the block at `ptr`, in little-endian order.  `/repo/src/bm_sim/md5.c:73-87`. -/
def getWord (ptr : Bytes) (n : Nat) : UInt32 :=
  (ptr.getD (n * 4) 0).toUInt32 ||| ((ptr.getD (n * 4 + 1) 0).toUInt32 <<< 8) |||
    ((ptr.getD (n * 4 + 2) 0).toUInt32 <<< 16) ||| ((ptr.getD (n * 4 + 3) 0).toUInt32 <<< 24)

/-- One pass of the loop of `body`.  `/repo/src/bm_sim/md5.c:107-187`. -/
def pass (r : Regs) (ptr : Bytes) : Regs :=
  let q := rows.foldl (fun q x => step x.1 x.2.1 (getWord ptr x.2.2.1) x.2.2.2.1 x.2.2.2.2 q) r
  { a := q.a + r.a, b := q.b + r.b, c := q.c + r.c, d := q.d + r.d }

/-- `body`: `n` passes (`size` is `64 * n`, and not 0); the variables and what is left of the data.
`/repo/src/bm_sim/md5.c:93-198`. -/
def body : Nat → Regs → Bytes → Option (Regs × Bytes)
  | 0, r, ptr => some (r, ptr)
  | n + 1, r, ptr => if ptr.length < 64 then none else body n (pass r ptr) (ptr.drop 64)

/-- `MD5_CTX`.  `/repo/src/bm_sim/md5.h:39-44`. -/
structure Ctx where
  lo : UInt32
  hi : UInt32
  regs : Regs
  buffer : Bytes
  deriving DecidableEq, Repr

/-- `memcpy` or `memset` of part of the buffer. -/
def poke (buf : Bytes) (i : Nat) (x : Bytes) : Option Bytes :=
  if i + x.length ≤ buf.length then some (buf.take i ++ x ++ buf.drop (i + x.length)) else none

/-- `MD5_Init`; the buffer is left as it was.  `/repo/src/bm_sim/md5.c:200-209`. -/
def init (buf : Bytes) : Ctx :=
  { lo := 0, hi := 0
    regs := { a := 0x67452301, b := 0xefcdab89, c := 0x98badcfe, d := 0x10325476 }
    buffer := buf }

/-- The count of bytes: `lo` has 29 bits.  `/repo/src/bm_sim/md5.c:216-219`. -/
def count (c : Ctx) (size : UInt64) : Ctx :=
  let lo := ((c.lo.toUInt64 + size) &&& 0x1fffffff).toUInt32
  let hi := if lo < c.lo then c.hi + 1 else c.hi
  { c with lo := lo, hi := (hi.toUInt64 + (size >>> 29)).toUInt32 }

/-- The whole blocks of the data, and the rest to the buffer.  `/repo/src/bm_sim/md5.c:237-242`. -/
def blocks (c : Ctx) (data : Bytes) : Option Ctx :=
  if 64 ≤ data.length then do
    let (r, rest) ← body (data.length / 64) c.regs data
    let buf ← poke c.buffer 0 (rest.take (data.length % 64))
    return { c with regs := r, buffer := buf }
  else do
    let buf ← poke c.buffer 0 data
    return { c with buffer := buf }

/-- `MD5_Update`, where `used` is the number of bytes in the buffer before the call.
`/repo/src/bm_sim/md5.c:211-243`. -/
def update (c : Ctx) (data : Bytes) : Option Ctx :=
  let used := (c.lo &&& 0x3f).toNat
  let c := count c (UInt64.ofNat data.length)
  if used ≠ 0 then
    if data.length < 64 - used then do
      let buf ← poke c.buffer used data
      return { c with buffer := buf }
    else do
      let buf ← poke c.buffer used (data.take (64 - used))
      let (r, _) ← body 1 c.regs buf
      blocks { c with regs := r, buffer := buf } (data.drop (64 - used))
  else blocks c data

/-- The four bytes of a word, least significant first.  `/repo/src/bm_sim/md5.c:265-272,276-291`. -/
def putWord (x : UInt32) : Bytes := [x.toUInt8, (x >>> 8).toUInt8, (x >>> 16).toUInt8, (x >>> 24).toUInt8]

/-- The padding when less than 8 bytes are available.  `/repo/src/bm_sim/md5.c:253-262`. -/
def finalPad (r : Regs) (buf : Bytes) (used : Nat) : Option (Regs × Bytes) :=
  if 64 - used < 8 then do
    let buf ← poke buf used (List.replicate (64 - used) 0)
    let (r, _) ← body 1 r buf
    let buf ← poke buf 0 (List.replicate (64 - 8) 0)
    return (r, buf)
  else do
    let buf ← poke buf used (List.replicate (64 - used - 8) 0)
    return (r, buf)

/-- `MD5_Final`.  `/repo/src/bm_sim/md5.c:245-294`. -/
def final (c : Ctx) : Option Bytes := do
  let used := (c.lo &&& 0x3f).toNat
  let buf ← poke c.buffer used [0x80]
  let (r, buf) ← finalPad c.regs buf (used + 1)
  let buf ← poke buf 56 (putWord (c.lo <<< 3) ++ putWord c.hi)
  let (r, _) ← body 1 r buf
  return putWord r.a ++ putWord r.b ++ putWord r.c ++ putWord r.d

/-- `MD5_Update` of several pieces, one after the other. -/
def updates (c : Ctx) : List Bytes → Option Ctx
  | [] => some c
  | x :: xs => do updates (← update c x) xs

/-- The digest of data given in pieces; `buf` is what the memory of the buffer held before.
`/repo/src/bm_sim/switch.cpp:487-494`. -/
def digest (buf : Bytes) (pieces : List Bytes) : Option Bytes := do final (← updates (init buf) pieces)

end Bm.Md5
