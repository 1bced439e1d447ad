import Verif.Model.LookupStructures
import Verif.Model.HandleMgr

/-!
# The lookup structure interface

`LookupStructure<K>` of `/repo/include/bm/bm_sim/lookup_structures.h:111-144` and its four
implementations, as created by `LookupStructureFactory`
(`/repo/src/bm_sim/lookup_structures.cpp:484-538`).
-/

namespace Bm

/-- The virtual interface `LookupStructure<K>`.
`/repo/include/bm/bm_sim/lookup_structures.h:111-144`.  Outer `none`: undefined behaviour,
exception or failed assertion. -/
structure LookupStr (K : Type) where
  S : Type
  init : Nat → S
  lookup : S → Bytes → Option (Option Nat × S)
  existsKey : S → K → Option Bool
  retrieve : S → K → Option (Option Nat)
  add : S → K → Nat → Option S
  delete : S → K → Option S
  clear : S → S

/-- `ExactMap`; the key type is the data.  `/repo/src/bm_sim/lookup_structures.cpp:89-134`. -/
def exactStr : LookupStr Bytes where
  S := ExactMap
  init := fun _ => {}
  lookup := fun s q => some (s.find q, s)
  existsKey := fun s k => some (s.find k).isSome
  retrieve := fun s k => some (s.find k)
  add := fun s k h => some (s.add k h)
  delete := fun s k => some (s.delete k)
  clear := fun _ => {}

/-- `LPMTrieStructure`.  `/repo/src/bm_sim/lookup_structures.cpp:36-87`. -/
def lpmStr (nbytes : Nat) : LookupStr LpmKey where
  S := LpmTrie Nat
  init := fun _ => LpmTrie.init nbytes
  lookup := fun s q => (s.lookup q).map fun r => (r, s)
  existsKey := fun s k => s.hasPrefix k.data k.prefixLength
  retrieve := fun s k => s.retrieveValue k.data k.prefixLength
  add := fun s k h => s.insertPrefix k.data k.prefixLength h
  delete := fun s k => (s.deletePrefix k.data k.prefixLength).map Prod.snd
  clear := fun s => s.clear

/-- `TernaryMap`.  `/repo/src/bm_sim/lookup_structures.cpp:380-423`. -/
def ternStr (nbytes : Nat) (enableCache : Bool) : LookupStr TernKey where
  S := EList TernKey
  init := fun n => { size := n, enableCache := enableCache }
  lookup := fun s q => s.lookup (ternCmp nbytes) q
  existsKey := fun s k => s.existsKey TernKey.priority ternEq k
  retrieve := fun s k => s.retrieveHandle TernKey.priority ternEq k
  add := fun s k h => s.add TernKey.priority k h
  delete := fun s k => s.delete TernKey.priority ternEq k
  clear := fun s => s.clear

/-- `RangeMap`.  `/repo/src/bm_sim/lookup_structures.cpp:425-480`. -/
def rangeStr (nbytes : Nat) (enableCache : Bool) : LookupStr RangeKey where
  S := EList RangeKey
  init := fun n => { size := n, enableCache := enableCache }
  lookup := fun s q => s.lookup (rangeCmp nbytes) q
  existsKey := fun s k => s.existsKey RangeKey.priority rangeEq k
  retrieve := fun s k => s.retrieveHandle RangeKey.priority rangeEq k
  add := fun s k h => s.add RangeKey.priority k h
  delete := fun s k => s.delete RangeKey.priority rangeEq k
  clear := fun s => s.clear

/-- The four kinds of match table. -/
inductive TableKind
  | exact (nbytes : Nat)
  | lpm (nbytes : Nat)
  | ternary (nbytes : Nat) (cache : Bool)
  | range (nbytes : Nat) (cache : Bool)

namespace TableKind

/-- Key type: the template argument `K` of `MatchUnitGeneric`.
`/repo/include/bm/bm_sim/match_units.h:500-514`. -/
@[reducible] def K : TableKind → Type
  | exact _ => Bytes
  | lpm _ => LpmKey
  | ternary _ _ => TernKey
  | range _ _ => RangeKey

/-- The lookup structure of this kind of table.
`/repo/src/bm_sim/lookup_structures.cpp:484-538`. -/
@[reducible] def str : (t : TableKind) → LookupStr t.K
  | exact _ => exactStr
  | lpm n => lpmStr n
  | ternary n c => ternStr n c
  | range n c => rangeStr n c

end TableKind

end Bm
