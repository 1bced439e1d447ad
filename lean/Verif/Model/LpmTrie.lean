/-!
# Model of `LPMTrie`

Transcribes `/repo/src/bm_sim/lpm_trie.cpp`.

Simplifications: `parent`/`child_id` back pointers are replaced by the recursion stack;
`std::lower_bound` followed by an equality test is a linear scan of the sorted vector (same
result on a sorted vector, and sortedness is proved as an invariant); reads of
`prefix[i]` with `i > size()` (undefined behaviour) are the outcome `none`, while
`prefix[size()]` is the NUL byte, as `std::string` guarantees.
-/

namespace Bm

/-- `lower_bound` + equality test on a vector sorted by `lt`.
`/repo/src/bm_sim/lpm_trie.cpp:71-77,129-139`. -/
def svFind {κ β : Type} [DecidableEq κ] (lt : κ → κ → Bool) (k : κ) : List (κ × β) → Option β
  | [] => none
  | (c, v) :: r => if lt c k then svFind lt k r else if c = k then some v else none

/-- `lower_bound` + overwrite or insert.  `/repo/src/bm_sim/lpm_trie.cpp:79-88` (prefixes) and
`108-115` (branches; `add_branch` itself never overwrites, it is called only for a missing byte,
and overwriting here stands for the in-place update of an existing child node). -/
def svInsert {κ β : Type} [DecidableEq κ] (lt : κ → κ → Bool) (k : κ) (v : β) :
    List (κ × β) → List (κ × β)
  | [] => [(k, v)]
  | (c, w) :: r =>
    if lt c k then (c, w) :: svInsert lt k v r
    else if c = k then (k, v) :: r
    else (k, v) :: (c, w) :: r

/-- `lower_bound` + `erase` if equal.  `/repo/src/bm_sim/lpm_trie.cpp:99-106,117-127`. -/
def svErase {κ β : Type} [DecidableEq κ] (lt : κ → κ → Bool) (k : κ) :
    List (κ × β) → List (κ × β)
  | [] => []
  | (c, w) :: r =>
    if lt c k then (c, w) :: svErase lt k r else if c = k then r else (c, w) :: r

/-- `Branch::value` comparison.  `/repo/src/bm_sim/lpm_trie.cpp:72-74`. -/
def byteLt (a b : UInt8) : Bool := decide (a < b)

/-- `Prefix::operator<`.  `/repo/src/bm_sim/lpm_trie.cpp:23-27`. -/
def prefixLt (a b : Nat × UInt8) : Bool :=
  if a.1 = b.1 then decide (a.2 < b.2) else decide (a.1 < b.1)

/-- `class Node`.  `/repo/src/bm_sim/lpm_trie.cpp:30-69`. -/
inductive TNode (α : Type) where
  | mk (branches : List (UInt8 × TNode α)) (prefixes : List ((Nat × UInt8) × α)) : TNode α

namespace TNode
variable {α : Type}

def branches : TNode α → List (UInt8 × TNode α)
  | mk b _ => b

def prefixes : TNode α → List ((Nat × UInt8) × α)
  | mk _ p => p

/-- A new node.  `/repo/src/bm_sim/lpm_trie.cpp:32-33`. -/
def empty : TNode α := mk [] []

/-- `is_empty`.  `/repo/src/bm_sim/lpm_trie.cpp:59`. -/
def isEmpty (n : TNode α) : Bool := n.prefixes.isEmpty && n.branches.isEmpty

/-- `get_next_node`.  `/repo/src/bm_sim/lpm_trie.cpp:71-77`. -/
def getNext (n : TNode α) (b : UInt8) : Option (TNode α) := svFind byteLt b n.branches

/-- `get_prefix`.  `/repo/src/bm_sim/lpm_trie.cpp:90-97`. -/
def getPrefix (n : TNode α) (len : Nat) (key : UInt8) : Option α :=
  svFind prefixLt (len, key) n.prefixes

/-- The byte `prefix[i] >> (8 - prefix_length)` computed after the loop, where `i` is the index
of the first unconsumed byte.  `/repo/src/bm_sim/lpm_trie.cpp:180,202,232`. -/
def lastKey (p : List UInt8) (len : Nat) : UInt8 :=
  match p with
  | [] => UInt8.ofNat (0 >>> (8 - len))
  | b :: _ => UInt8.ofNat (b.toNat >>> (8 - len))

/-- `insert_prefix` below a node.  `/repo/src/bm_sim/lpm_trie.cpp:160-182`.  With no byte left
and at least 8 bits to go the C++ code ends up reading past the terminating NUL: `none`. -/
def insert (p : List UInt8) (len : Nat) (v : α) (n : TNode α) : Option (TNode α) :=
  if 8 ≤ len then
    match p with
    | [] => none
    | b :: p' =>
      match n.getNext b with
      | some c => do
        let c' ← insert p' (len - 8) v c
        return mk (svInsert byteLt b c' n.branches) n.prefixes
      | none => do
        let c' ← insert p' (len - 8) v empty
        return mk (svInsert byteLt b c' n.branches) n.prefixes
  else
    some (mk n.branches (svInsert prefixLt (len, lastKey p len) v n.prefixes))

/-- `retrieve_value` below a node.  `/repo/src/bm_sim/lpm_trie.cpp:190-204`. Outer option: UB. -/
def retrieve (p : List UInt8) (len : Nat) (n : TNode α) : Option (Option α) :=
  if 8 ≤ len then
    match p with
    | [] => none
    | b :: p' =>
      match n.getNext b with
      | some c => retrieve p' (len - 8) c
      | none => some none
  else
    some (n.getPrefix len (lastKey p len))

/-- `delete_prefix` below a node.  `/repo/src/bm_sim/lpm_trie.cpp:221-243`.  `some none` =
returned false.  The `while (is_empty())` loop towards the root removes the branch leading to a
node that has become empty and then looks at the parent, which is what returning from the
recursion does. -/
def delete (p : List UInt8) (len : Nat) (n : TNode α) : Option (Option (TNode α)) :=
  if 8 ≤ len then
    match p with
    | [] => none
    | b :: p' =>
      match n.getNext b with
      | none => some none
      | some c => do
        match ← delete p' (len - 8) c with
        | none => return none
        | some c' =>
          if c'.isEmpty then return some (mk (svErase byteLt b n.branches) n.prefixes)
          else return some (mk (svInsert byteLt b c' n.branches) n.prefixes)
  else
    match n.getPrefix len (lastKey p len) with
    | none => some none
    | some _ =>
      some (some (mk n.branches (svErase prefixLt (len, lastKey p len) n.prefixes)))

/-- Inner loop `while (len--) { cur_prefix >>= 1; ... }` of `lookup`.
`/repo/src/bm_sim/lpm_trie.cpp:261-269`. -/
def scan (n : TNode α) : Nat → UInt8 → Option α
  | 0, _ => none
  | len + 1, cur =>
    let cur' := cur >>> 1
    match n.getPrefix len cur' with
    | some v => some v
    | none => scan n len cur'

/-- Outer loop of `lookup`; `found` carries the value written through the pointer so far.
`/repo/src/bm_sim/lpm_trie.cpp:255-276`. -/
def lookup : List UInt8 → TNode α → Option α → Option α
  | [], n, _ => n.getPrefix 0 0
  | b :: bs, n, found =>
    let found' := (scan n 8 b).or found
    match n.getNext b with
    | none => found'
    | some c => lookup bs c found'

end TNode

/-- `class LPMTrie`.  `/repo/src/bm_sim/lpm_trie.h:67-69`. -/
structure LpmTrie (α : Type) where
  root : TNode α := TNode.empty
  keyWidth : Nat

namespace LpmTrie
variable {α : Type}

/-- Constructor (the `assert(key_width_bytes <= 64)` is not needed for the results).
`/repo/src/bm_sim/lpm_trie.cpp:141-145`. -/
def init (w : Nat) : LpmTrie α := { keyWidth := w }

/-- `insert_prefix`.  `/repo/src/bm_sim/lpm_trie.cpp:160-188`. -/
def insertPrefix (t : LpmTrie α) (p : List UInt8) (len : Nat) (v : α) : Option (LpmTrie α) := do
  let r ← t.root.insert p len v
  return { t with root := r }

/-- `retrieve_value`.  `/repo/src/bm_sim/lpm_trie.cpp:190-210`. -/
def retrieveValue (t : LpmTrie α) (p : List UInt8) (len : Nat) : Option (Option α) :=
  t.root.retrieve p len

/-- `has_prefix`.  `/repo/src/bm_sim/lpm_trie.cpp:212-219`. -/
def hasPrefix (t : LpmTrie α) (p : List UInt8) (len : Nat) : Option Bool :=
  (t.retrieveValue p len).map Option.isSome

/-- `delete_prefix`.  `/repo/src/bm_sim/lpm_trie.cpp:221-248`. -/
def deletePrefix (t : LpmTrie α) (p : List UInt8) (len : Nat) : Option (Bool × LpmTrie α) := do
  match ← t.root.delete p len with
  | none => return (false, t)
  | some r => return (true, { t with root := r })

/-- `lookup`.  `/repo/src/bm_sim/lpm_trie.cpp:250-282`.  Only the first `key_width_bytes` bytes
of the key are read; a shorter key is read out of range (`none`). -/
def lookup (t : LpmTrie α) (key : List UInt8) : Option (Option α) :=
  if key.length < t.keyWidth then none else some (t.root.lookup (key.take t.keyWidth) none)

/-- `clear`.  `/repo/src/bm_sim/lpm_trie.cpp:284`. -/
def clear (t : LpmTrie α) : LpmTrie α := { t with root := TNode.empty }

end LpmTrie
end Bm
