import Verif.Model.LpmTrie

/-!
# Model of the lookup structures used by match tables

Transcribes `/repo/src/bm_sim/lookup_structures.cpp` and the key types of
`/repo/include/bm/bm_sim/match_key_types.h`.

Undefined behaviour (null dereference, index out of range), a thrown `std::out_of_range` and a
failed `assert` are the outcome `none`; so is a traversal that does not reach the end of the
linked list within `size + 1` steps (a cyclic list).

Simplifications: the `std::unordered_map` of `ExactMap` is an association list; the
`TernaryCache` (a recency list plus a hash index into it) is the recency list alone; keys are
stored by value where the C++ stores a pointer to the key held by the match unit; mutexes are
omitted.
-/

namespace Bm

/-- `ByteContainer` contents. -/
abbrev Bytes := List UInt8

/-- `LPMMatchKey` (without the version).  `/repo/include/bm/bm_sim/match_key_types.h:49-57`. -/
structure LpmKey where
  data : Bytes
  prefixLength : Nat
deriving DecidableEq, Repr

/-- `TernaryMatchKey` (without the version).
`/repo/include/bm/bm_sim/match_key_types.h:59-73`. -/
structure TernKey where
  data : Bytes
  mask : Bytes
  priority : Int
deriving DecidableEq, Repr

/-- `RangeMatchKey` (without the version).
`/repo/include/bm/bm_sim/match_key_types.h:75-85`. -/
structure RangeKey where
  data : Bytes
  mask : Bytes
  priority : Int
  rangeWidths : List Nat
deriving DecidableEq, Repr

/-- `INT_MAX`, initial value of `min_priority`.
`/repo/src/bm_sim/lookup_structures.cpp:255-256`. -/
def intMax : Int := 2147483647

/-! ## `ExactMap` -/

/-- `ExactMap`.  `/repo/src/bm_sim/lookup_structures.cpp:89-134`. -/
structure ExactMap where
  entries : List (Bytes × Nat) := []
deriving Repr

namespace ExactMap

/-- `entries_map.find`. -/
def find (m : ExactMap) (k : Bytes) : Option Nat := m.entries.lookup k

/-- `add_entry`: `entries_map[key.data] = handle`.
`/repo/src/bm_sim/lookup_structures.cpp:118-121`. -/
def add (m : ExactMap) (k : Bytes) (h : Nat) : ExactMap :=
  { entries := (k, h) :: m.entries.filter (fun e => e.1 != k) }

/-- `delete_entry`: `entries_map.erase(key.data)`.
`/repo/src/bm_sim/lookup_structures.cpp:123-125`. -/
def delete (m : ExactMap) (k : Bytes) : ExactMap :=
  { entries := m.entries.filter (fun e => e.1 != k) }

end ExactMap

/-! ## `TernaryCache` -/

/-- `TernaryCache<S>`: most recently used entry first.
`/repo/src/bm_sim/lookup_structures.cpp:136-229`. -/
structure TCache where
  cap : Nat := 64
  entries : List (Bytes × Nat) := []
deriving Repr

namespace TCache

/-- `lookup`: on a hit the entry moves to the head.
`/repo/src/bm_sim/lookup_structures.cpp:149-158,213-217`. -/
def lookup (c : TCache) (k : Bytes) : Option Nat × TCache :=
  match c.entries.lookup k with
  | some h => (some h, { c with entries := (k, h) :: c.entries.filter (fun e => e.1 != k) })
  | none => (none, c)

/-- `add`: evict the least recently used entry if full; `entries.back()` on an empty list would
be undefined (`none`).  `/repo/src/bm_sim/lookup_structures.cpp:160-174`. -/
def add (c : TCache) (k : Bytes) (h : Nat) : Option TCache :=
  match c.entries.lookup k with
  | some _ => some c
  | none =>
    if c.entries.length = c.cap then
      if c.entries = [] then none
      else some { c with entries := (k, h) :: c.entries.dropLast }
    else some { c with entries := (k, h) :: c.entries }

/-- `invalidate_all`.  `/repo/src/bm_sim/lookup_structures.cpp:178-184`. -/
def invalidateAll (c : TCache) : TCache := { c with entries := [] }

end TCache

/-! ## `EntryList` -/

/-- `EntryList::Entry`; value-initialised by the vector constructor.
`/repo/src/bm_sim/lookup_structures.cpp:342-347`. Pointers to entries are indices. -/
structure ENode (K : Type) where
  priority : Int := 0
  key : Option K := none
  prev : Option Nat := none
  next : Option Nat := none

/-- `EntryList`.  `/repo/src/bm_sim/lookup_structures.cpp:349-357`. -/
structure EList (K : Type) where
  head : Option Nat := none
  size : Nat
  nodes : Nat → ENode K := fun _ => {}
  count : Nat := 0
  enableCache : Bool
  useCache : Bool := false
  cache : TCache := {}

namespace EList
variable {K : Type}

/-- Write one element of the `entries` vector. -/
def setNode (l : EList K) (i : Nat) (n : ENode K) : EList K :=
  { l with nodes := fun j => if j = i then n else l.nodes j }

/-- Loop of `lookup` over the linked list.
`/repo/src/bm_sim/lookup_structures.cpp:255-272`. -/
def lookupLoop (l : EList K) (cmp : Bytes → K → Option Bool) (kd : Bytes) :
    Nat → Option Nat → Int → Option Nat → Option (Option Nat)
  | _, none, _, mh => some mh
  | 0, some _, _, _ => none
  | f + 1, some i, mp, mh =>
    let e := l.nodes i
    if e.priority ≥ mp ∧ mh.isSome = true then lookupLoop l cmp kd f e.next mp mh
    else do
      let k ← e.key
      let c ← cmp kd k
      if c then lookupLoop l cmp kd f e.next e.priority (some i)
      else lookupLoop l cmp kd f e.next mp mh

/-- `lookup`.  `/repo/src/bm_sim/lookup_structures.cpp:247-281`. -/
def lookup (l : EList K) (cmp : Bytes → K → Option Bool) (kd : Bytes) :
    Option (Option Nat × EList K) := do
  let (hit, c1) := if l.useCache then l.cache.lookup kd else (none, l.cache)
  match hit with
  | some h => return (some h, { l with cache := c1 })
  | none =>
    let r ← l.lookupLoop cmp kd (l.size + 1) l.head intMax none
    match r with
    | some h =>
      let c2 ← if l.useCache then c1.add kd h else some c1
      return (some h, { l with cache := c2 })
    | none => return (none, { l with cache := c1 })

/-- Loop of `find_entry`.  `/repo/src/bm_sim/lookup_structures.cpp:363-369`. -/
def findLoop (l : EList K) (prio : K → Int) (eqk : K → K → Bool) (key : K) :
    Nat → Option Nat → Option (Option Nat)
  | _, none => some none
  | 0, some _ => none
  | f + 1, some i =>
    let e := l.nodes i
    if e.priority = prio key then do
      let k ← e.key
      if eqk k key then some (some i) else findLoop l prio eqk key f e.next
    else findLoop l prio eqk key f e.next

/-- `find_entry`.  `/repo/src/bm_sim/lookup_structures.cpp:363-369`. -/
def findEntry (l : EList K) (prio : K → Int) (eqk : K → K → Bool) (key : K) :
    Option (Option Nat) := l.findLoop prio eqk key (l.size + 1) l.head

/-- `exists`.  `/repo/src/bm_sim/lookup_structures.cpp:283-286`. -/
def existsKey (l : EList K) (prio : K → Int) (eqk : K → K → Bool) (key : K) : Option Bool :=
  (l.findEntry prio eqk key).map Option.isSome

/-- `retrieve_handle`.  `/repo/src/bm_sim/lookup_structures.cpp:288-293`. -/
def retrieveHandle (l : EList K) (prio : K → Int) (eqk : K → K → Bool) (key : K) :
    Option (Option Nat) := l.findEntry prio eqk key

/-- Tail of `add`/`delete_entry`: `if (cache_activated()) cache.invalidate_all();
update_use_cache();`.  `/repo/src/bm_sim/lookup_structures.cpp:317-318,330-331,375-377`. -/
def refreshCache (l : EList K) : EList K :=
  { l with
    cache := if l.useCache then l.cache.invalidateAll else l.cache
    useCache := l.enableCache && decide (l.count ≥ 16) }

/-- `if (entry.next) entry.next->prev = p`.
`/repo/src/bm_sim/lookup_structures.cpp:304,314,328`. -/
def setPrevOf (l : EList K) (nxt : Option Nat) (p : Option Nat) : EList K :=
  match nxt with
  | none => l
  | some j => l.setNode j { l.nodes j with prev := p }

/-- `add`.  `/repo/src/bm_sim/lookup_structures.cpp:295-319`.  `entries.at(handle)` throws when
out of range. -/
def add (l : EList K) (prio : K → Int) (key : K) (h : Nat) : Option (EList K) :=
  if h < l.size then
    let l1 : Option (EList K) :=
      if h = 0 then
        let nxt := l.head
        let la := l.setNode h { priority := prio key, key := some key, prev := none, next := nxt }
        some ({ la with head := some h }.setPrevOf nxt (some h))
      else if l.head = some h then none
      else
        let nxt := (l.nodes (h - 1)).next
        let la := l.setNode h
          { priority := prio key, key := some key, prev := some (h - 1), next := nxt }
        let lb := la.setNode (h - 1) { la.nodes (h - 1) with next := some h }
        some (lb.setPrevOf nxt (some h))
    l1.map fun l2 => { l2 with count := l2.count + 1 }.refreshCache
  else none

/-- `delete_entry`.  `/repo/src/bm_sim/lookup_structures.cpp:321-332`. -/
def delete (l : EList K) (prio : K → Int) (eqk : K → K → Bool) (key : K) :
    Option (EList K) := do
  let r ← l.findEntry prio eqk key
  let i ← r
  let e := l.nodes i
  let l1 : EList K := match e.prev with
    | some p => l.setNode p { l.nodes p with next := e.next }
    | none => { l with head := e.next }
  let l2 := l1.setPrevOf e.next e.prev
  return { l2 with count := l2.count - 1 }.refreshCache

/-- `clear`.  `/repo/src/bm_sim/lookup_structures.cpp:334-339`. -/
def clear (l : EList K) : EList K :=
  { l with
    head := none
    cache := l.cache.invalidateAll
    count := 0
    useCache := l.enableCache && decide (0 ≥ 16) }

end EList

/-! ## Comparison of a lookup key with an entry -/

/-- Byte loop of the ternary comparison from `i` on, `n` bytes to go.
`/repo/src/bm_sim/lookup_structures.cpp:387-393,444-447`. -/
def maskedEqFrom (kd data mask : Bytes) : Nat → Nat → Option Bool
  | _, 0 => some true
  | i, n + 1 => do
    let d ← data[i]?
    let k ← kd[i]?
    let m ← mask[i]?
    if d ≠ (k &&& m) then return false else maskedEqFrom kd data mask (i + 1) n

/-- `TernaryMap` comparison.  `/repo/src/bm_sim/lookup_structures.cpp:387-393`. -/
def ternCmp (nbytes : Nat) (kd : Bytes) (k : TernKey) : Option Bool :=
  maskedEqFrom kd k.data k.mask 0 nbytes

/-- `memcmp` on `n` bytes at offset `i`: sign of the first difference. -/
def memcmpFrom (a b : Bytes) : Nat → Nat → Option Ordering
  | _, 0 => some .eq
  | i, n + 1 => do
    let x ← a[i]?
    let y ← b[i]?
    if x < y then return .lt else if y < x then return .gt else memcmpFrom a b (i + 1) n

/-- Loop over `range_widths`; the remaining offset is returned when all ranges match.
`/repo/src/bm_sim/lookup_structures.cpp:433-442`. -/
def rangesFrom (kd : Bytes) (k : RangeKey) : Nat → List Nat → Option (Option Nat)
  | off, [] => some (some off)
  | off, w :: ws => do
    if (← memcmpFrom kd k.data off w) = .lt then return none
    if (← memcmpFrom kd k.mask off w) = .gt then return none
    rangesFrom kd k (off + w) ws

/-- `RangeMap` comparison.  `/repo/src/bm_sim/lookup_structures.cpp:432-450`. -/
def rangeCmp (nbytes : Nat) (kd : Bytes) (k : RangeKey) : Option Bool := do
  match ← rangesFrom kd k 0 k.rangeWidths with
  | none => return false
  | some off => maskedEqFrom kd k.data k.mask off (nbytes - off)

/-- `operator==(TernaryMatchKey, TernaryMatchKey)`.
`/repo/src/bm_sim/lookup_structures.cpp:231-233`. -/
def ternEq (a b : TernKey) : Bool := a.data = b.data && a.mask = b.mask

/-- `operator==(RangeMatchKey, RangeMatchKey)`.
`/repo/src/bm_sim/lookup_structures.cpp:235-238`. -/
def rangeEq (a b : RangeKey) : Bool :=
  a.data = b.data && a.mask = b.mask && a.rangeWidths = b.rangeWidths

end Bm
