import Verif.Model.LookupStructures

/-!
# Model of the other hash functions

`/repo/src/bm_sim/calculations.cpp:353-504`: `toeplitz`, `xor16`, `xor32`, `identity`, `round_robin`,
`round_robin_consistent`.  (`xxh64` is a third-party function and not modelled.)  Words are `BitVec`s;
reading a word through a pointer followed by `ntohl` is the big-endian value of 4 bytes.
-/

namespace Bm.Hash

/-- `emitAsInteger` for a type of `n` bytes (`n * 8` bits).
`/repo/src/bm_sim/calculations.cpp:356-368`. -/
def emit (n : Nat) (bs : Bytes) : Option (BitVec (8 * n)) :=
  if bs.length ≤ n then
    some ((bs.foldl (fun (r : BitVec (8 * n)) (b : UInt8) => (r <<< 8) ||| BitVec.ofNat (8 * n) b.toNat) 0#(8 * n)) <<<
      ((n - bs.length) * 8))
  else none

/-- The loop of `xor_hash`, for a type of `n` bytes; the first argument bounds the number of
iterations.  `/repo/src/bm_sim/calculations.cpp:378-385`. -/
def xorLoop (n : Nat) : Nat → Bytes → BitVec (8 * n) → Option (BitVec (8 * n))
  | 0, _, _ => none
  | k + 1, bs, acc =>
    if bs.length ≥ n then do xorLoop n k (bs.drop n) (acc ^^^ (← emit n (bs.take n)))
    else do return acc ^^^ (← emit n bs)

/-- `xor_hash`; `n` is 2 or 4.  `/repo/src/bm_sim/calculations.cpp:370-389`. -/
def xorHash (n : Nat) (bs : Bytes) : Option (BitVec (8 * n)) := xorLoop n (bs.length + 1) bs 0#(8 * n)

/-! ## Toeplitz -/

/-- `ntohl` of a word in memory. -/
def ntohl (b0 b1 b2 b3 : UInt8) : BitVec 32 :=
  b0.toBitVec ++ b1.toBitVec ++ b2.toBitVec ++ b3.toBitVec

/-- The input as words.  `/repo/src/bm_sim/calculations.cpp:399-411`. -/
def inputWords : Bytes → Option (List (BitVec 32))
  | b0 :: b1 :: b2 :: b3 :: bs => do return ntohl b0 b1 b2 b3 :: (← inputWords bs)
  | [] => some []
  | bs => do return [← emit 4 bs]

/-- `__builtin_ctz`: the number of trailing zero bits; undefined for 0. -/
def ctz (x : BitVec 32) : Option Nat := (List.range 32).find? fun i => x.getLsbD i

/-- The loop over the set bits of an input word, from the lowest one up; the first argument bounds the
number of iterations, a word has at most 32 set bits.
`/repo/src/bm_sim/calculations.cpp:422-429`. -/
def wordLoop (keyL keyR : BitVec 32) : Nat → BitVec 32 → BitVec 32 → Option (BitVec 32)
  | 0, x, acc => if x = 0 then some acc else none
  | n + 1, x, acc =>
    if x = 0 then some acc
    else do
      let iBit := 31 - (← ctz x)
      let l := keyL <<< iBit
      let r := (keyR.setWidth 64 >>> (32 - iBit)).setWidth 32
      wordLoop keyL keyR n (x &&& (x - 1)) (acc ^^^ (l ||| r))

/-- The loop over the input words, from word number `i` on.
`/repo/src/bm_sim/calculations.cpp:418-430`. -/
def toeplitzLoop (key : List (BitVec 32)) : Nat → List (BitVec 32) → BitVec 32 → Option (BitVec 32)
  | _, [], acc => some acc
  | i, x :: xs, acc => do
    let l ← key[i % key.length]?
    let r ← key[(i + 1) % key.length]?
    toeplitzLoop key (i + 1) xs (← wordLoop l r 32 x acc)

/-- `toeplitz::operator()`.  `/repo/src/bm_sim/calculations.cpp:398-433`. -/
def toeplitz (key : List (BitVec 32)) (bs : Bytes) : Option (BitVec 32) := do
  toeplitzLoop key 0 (← inputWords bs) 0

/-- The words of a key.  `/repo/src/bm_sim/calculations.cpp:444-449`. -/
def keyWords : Bytes → List (BitVec 32)
  | b0 :: b1 :: b2 :: b3 :: bs => ntohl b0 b1 b2 b3 :: keyWords bs
  | _ => []

/-- `update_key`: the new key, or the old one and `INVALID_KEY`.
`/repo/src/bm_sim/calculations.cpp:435-452`. -/
def updateKey (host : List (BitVec 32)) (key : Bytes) : Bool × List (BitVec 32) :=
  if key.length < 4 ∨ key.length % 4 ≠ 0 then (false, host) else (true, keyWords key)

/-- The constructor: the key is four zero bytes.  `/repo/src/bm_sim/calculations.cpp:394-396`. -/
def newKey : List (BitVec 32) := (updateKey [] [0, 0, 0, 0]).2

/-! ## The rest -/

/-- The loop of `identity`, from index `i` on.  `/repo/src/bm_sim/calculations.cpp:461-466`. -/
def identityLoop : Nat → Bytes → BitVec 64 → BitVec 64
  | _, [], res => res
  | i, b :: bs, res =>
    if i < 8 then
      identityLoop (i + 1) bs ((if i > 0 then res <<< 8 else res) + BitVec.ofNat 64 b.toNat)
    else res

/-- `identity`.  `/repo/src/bm_sim/calculations.cpp:459-468`. -/
def identity (bs : Bytes) : BitVec 64 := identityLoop 0 bs 0

/-- `round_robin`: the result and the new counter.  `/repo/src/bm_sim/calculations.cpp:478-488`. -/
def roundRobin (idx : BitVec 64) : BitVec 64 × BitVec 64 := (idx, idx + 1)

/-- The state of `round_robin_consistent`.  `/repo/src/bm_sim/calculations.cpp:501-503`. -/
structure Rrc where
  idx : BitVec 64 := 0
  hashes : List (Bytes × BitVec 64) := []

/-- `round_robin_consistent`.  `/repo/src/bm_sim/calculations.cpp:492-499`. -/
def Rrc.call (s : Rrc) (bs : Bytes) : BitVec 64 × Rrc :=
  match s.hashes.lookup bs with
  | some v => (v, s)
  | none => (s.idx, { idx := s.idx + 1, hashes := (bs, s.idx) :: s.hashes })

end Bm.Hash
