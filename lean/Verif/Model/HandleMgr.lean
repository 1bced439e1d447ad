/-!
# Model of `DynamicBitset` and `HandleMgr`

Transcribes `/repo/include/bm/bm_sim/dynamic_bitset.h` and
`/repo/include/bm/bm_sim/handle_mgr.h`.

Simplifications: `size_type`/`handle_t` (64-bit) are natural numbers, i.e. fewer than
2^64 - 1 slots are ever in use; `npos` is `none`.  A failed `assert` or an access outside
the `words` vector is the outcome `none` of the `Option` monad (not totalised).
-/

namespace Bm

/-- Lookup table of `find_lowest_bit<uint32_t>`.
`/repo/include/bm/bm_sim/dynamic_bitset.h:28-31`. -/
def deBruijnTable : List Nat :=
  [0, 1, 28, 2, 29, 14, 24, 3, 30, 22, 20, 15, 25, 17, 4, 8,
   31, 27, 13, 23, 21, 19, 16, 7, 26, 12, 18, 6, 11, 5, 10, 9]

/-- `find_lowest_bit<uint32_t>`.  `/repo/include/bm/bm_sim/dynamic_bitset.h:27-33`. The index
is a 5-bit number so the table access is in range (the default is never used). -/
def findLowestBit32 (v : BitVec 32) : Nat :=
  deBruijnTable.getD ((((v &&& -v) * 0x077CB531#32) >>> 27).toNat) 0

/-- `find_lowest_bit<uint64_t>`.  `/repo/include/bm/bm_sim/dynamic_bitset.h:35-41`. -/
def findLowestBit64 (v : BitVec 64) : Nat :=
  let sw : BitVec 32 := (v &&& 0xFFFFFFFF#64).setWidth 32
  if sw = 0#32 then 32 + findLowestBit32 ((v >>> 32).setWidth 32) else findLowestBit32 sw

/-- `class DynamicBitset`, data members.  `/repo/include/bm/bm_sim/dynamic_bitset.h:161-163`. -/
structure Bitset where
  words : List (BitVec 64) := []
  numBits : Nat := 0
  numSet : Nat := 0
deriving Repr, DecidableEq

namespace Bitset

/-- `ones`.  `/repo/include/bm/bm_sim/dynamic_bitset.h:160`. -/
def ones : BitVec 64 := ~~~0#64

/-- `test`.  `/repo/include/bm/bm_sim/dynamic_bitset.h:59-64`. -/
def test (b : Bitset) (idx : Nat) : Option Bool := do
  if idx < b.numBits then
    let w ← b.words[idx / 64]?
    return decide (w &&& (1#64 <<< (idx % 64)) ≠ 0#64)
  else none

/-- `set`.  `/repo/include/bm/bm_sim/dynamic_bitset.h:66-75`.  The boolean is the returned
value (true iff the bit was clear). -/
def set (b : Bitset) (idx : Nat) : Option (Bool × Bitset) := do
  if idx < b.numBits then
    let w ← b.words[idx / 64]?
    let mask := 1#64 <<< (idx % 64)
    let bit := w &&& mask
    return (decide (bit = 0#64),
      { b with
        words := b.words.set (idx / 64) (w ||| mask)
        numSet := b.numSet + ((bit >>> (idx % 64)) ^^^ 1#64).toNat })
  else none

/-- `reset`.  `/repo/include/bm/bm_sim/dynamic_bitset.h:77-86`.  The boolean is the returned
value (true iff the bit was set). -/
def reset (b : Bitset) (idx : Nat) : Option (Bool × Bitset) := do
  if idx < b.numBits then
    let w ← b.words[idx / 64]?
    let mask := 1#64 <<< (idx % 64)
    let bit := w &&& mask
    return (decide (bit ≠ 0#64),
      { b with
        words := b.words.set (idx / 64) (w &&& ~~~mask)
        numSet := b.numSet - (bit >>> (idx % 64)).toNat })
  else none

/-- `push_back`.  `/repo/include/bm/bm_sim/dynamic_bitset.h:88-93`. -/
def pushBack (b : Bitset) (v : Bool) : Option Bitset := do
  let b1 : Bitset := if b.numBits % 64 = 0 then { b with words := b.words ++ [0#64] } else b
  let b2 : Bitset := { b1 with numBits := b1.numBits + 1 }
  if v then (b2.set (b2.numBits - 1)).map Prod.snd else some b2

/-- `clear`.  `/repo/include/bm/bm_sim/dynamic_bitset.h:95-99`. -/
def clear (_ : Bitset) : Bitset := {}

/-- Loop of `find_from_block` over the words from index `i` on.
`/repo/include/bm/bm_sim/dynamic_bitset.h:143-149`. -/
def findFromWords : List (BitVec 64) → Nat → Option Nat
  | [], _ => none
  | w :: ws, i => if w = 0#64 then findFromWords ws (i + 1) else some (i * 64 + findLowestBit64 w)

/-- `find_from_block`.  `/repo/include/bm/bm_sim/dynamic_bitset.h:143-149`. -/
def findFromBlock (b : Bitset) (wordIdx : Nat) : Option Nat :=
  findFromWords (b.words.drop wordIdx) wordIdx

/-- Loop of `find_unset_from_block`.  `/repo/include/bm/bm_sim/dynamic_bitset.h:151-157`. -/
def findUnsetFromWords : List (BitVec 64) → Nat → Option Nat
  | [], _ => none
  | w :: ws, i =>
    if w = ones then findUnsetFromWords ws (i + 1) else some (i * 64 + findLowestBit64 (~~~w))

/-- `find_unset_from_block`.  `/repo/include/bm/bm_sim/dynamic_bitset.h:151-157`. -/
def findUnsetFromBlock (b : Bitset) (wordIdx : Nat) : Option Nat :=
  findUnsetFromWords (b.words.drop wordIdx) wordIdx

/-- `find_first`.  `/repo/include/bm/bm_sim/dynamic_bitset.h:101-103`. -/
def findFirst (b : Bitset) : Option Nat := b.findFromBlock 0

/-- `find_next`.  `/repo/include/bm/bm_sim/dynamic_bitset.h:105-113`.  Outer option: access
outside `words`; inner option: `npos`. -/
def findNext (b : Bitset) (idx0 : Nat) : Option (Option Nat) := do
  let idx := idx0 + 1
  if idx ≥ b.numBits then return none
  let w ← b.words[idx / 64]?
  let sw := w &&& (ones <<< (idx % 64))
  if sw = 0#64 then return b.findFromBlock (idx / 64 + 1)
  return some (idx / 64 * 64 + findLowestBit64 sw)

/-- `find_unset_next`.  `/repo/include/bm/bm_sim/dynamic_bitset.h:119-127`.  Outer option:
access outside `words`; inner option: `npos`. -/
def findUnsetNext (b : Bitset) (idx0 : Nat) : Option (Option Nat) := do
  let idx := idx0 + 1
  if idx ≥ b.numBits then return none
  let w ← b.words[idx / 64]?
  let sw := w ||| ~~~(ones <<< (idx % 64))
  if sw = ones then return b.findUnsetFromBlock (idx / 64 + 1)
  return some (idx / 64 * 64 + findLowestBit64 (~~~sw))

/-- `std::vector<Block>::resize`: truncates or appends zero words. -/
def resizeWords (ws : List (BitVec 64)) (n : Nat) : List (BitVec 64) :=
  ws.take n ++ List.replicate (n - ws.length) 0#64

/-- `resize`.  `/repo/include/bm/bm_sim/dynamic_bitset.h:137-140`. -/
def resize (b : Bitset) (n : Nat) : Bitset :=
  { b with numBits := n, words := resizeWords b.words ((n + 64 - 1) / 64) }

end Bitset

/-- `class HandleMgr`, data members.  `/repo/include/bm/bm_sim/handle_mgr.h:221-222`. -/
structure HandleMgr where
  handles : Bitset := {}
  firstUnset : Nat := 0
deriving Repr, DecidableEq

namespace HandleMgr

/-- `get_handle`.  `/repo/include/bm/bm_sim/handle_mgr.h:140-154`.  Returns the handle written
through the pointer; the C++ function always returns 0. -/
def getHandle (m : HandleMgr) : Option (Nat × HandleMgr) := do
  let pos := m.firstUnset
  let s := m.handles.numBits
  if pos < s then
    let (_, h) ← m.handles.set pos
    let fu ← h.findUnsetNext m.firstUnset
    return (pos, { handles := h, firstUnset := fu.getD s })
  else if pos = s then
    let h ← m.handles.pushBack true
    return (pos, { handles := h, firstUnset := m.firstUnset + 1 })
  else none

/-- `release_handle`.  `/repo/include/bm/bm_sim/handle_mgr.h:156-162`.  The boolean is `true`
for return value 0 (success). -/
def releaseHandle (m : HandleMgr) (pos : Nat) : Option (Bool × HandleMgr) := do
  let s := m.handles.numBits
  if pos ≥ s then return (false, m)
  let (ok, h) ← m.handles.reset pos
  if ok then
    return (true, { handles := h, firstUnset := if m.firstUnset > pos then pos else m.firstUnset })
  else
    return (false, { m with handles := h })

/-- `set_handle`.  `/repo/include/bm/bm_sim/handle_mgr.h:164-176`.  The variable `s` is the
size *before* the resize, as in the C++ code. -/
def setHandle (m : HandleMgr) (pos : Nat) : Option (Bool × HandleMgr) := do
  let s := m.handles.numBits
  let h0 := if pos ≥ s then m.handles.resize (pos + 1) else m.handles
  let (ok, h) ← h0.set pos
  if !ok then return (false, { m with handles := h })
  if m.firstUnset = pos then
    let fu ← h.findUnsetNext pos
    return (true, { handles := h, firstUnset := fu.getD s })
  else
    return (true, { m with handles := h })

/-- `size`.  `/repo/include/bm/bm_sim/handle_mgr.h:178-180`. -/
def size (m : HandleMgr) : Nat := m.handles.numSet

/-- `valid_handle`.  `/repo/include/bm/bm_sim/handle_mgr.h:182-187`. -/
def validHandle (m : HandleMgr) (pos : Nat) : Option Bool :=
  if pos ≥ m.handles.numBits then some false else m.handles.test pos

/-- `clear`.  `/repo/include/bm/bm_sim/handle_mgr.h:189-192`. -/
def clear (m : HandleMgr) : HandleMgr := { handles := m.handles.clear, firstUnset := 0 }

/-- Loop `for (it = begin(); it != end(); ++it)` over the iterators,
`/repo/include/bm/bm_sim/handle_mgr.h:59-67,196-202,212-214`.  `fuel` bounds the number of
iterations; `none` also stands for running out of fuel (`C01_iterate` shows `numBits + 1` suffices). -/
def iterFrom (m : HandleMgr) : Nat → Option Nat → Option (List Nat)
  | _, none => some []
  | 0, some _ => none
  | fuel + 1, some i => do
    let nxt ← m.handles.findNext i
    let rest ← iterFrom m fuel nxt
    return i :: rest

/-- All handles in iteration order.  `/repo/include/bm/bm_sim/handle_mgr.h:196-218`. -/
def iterate (m : HandleMgr) : Option (List Nat) :=
  m.iterFrom (m.handles.numBits + 1) m.handles.findFirst

end HandleMgr
end Bm
