import Verif.Model.Save
import Verif.Model.ActionProfile

/-!
# Saving and restoring an action profile and its tables

`serialize`/`deserialize` of `ActionProfile` (`/repo/src/bm_sim/action_profile.cpp`) and of indirect tables
(`/repo/src/bm_sim/match_tables.cpp`), in the order of `P4Objects::serialize` (`/repo/src/bm_sim/P4Objects.cpp`).

The text is a list of items, as in `Model/Save`.  An action with its data is an element of a type `A`, with the functions
that print it and read it (`EntIO`).  The node after a miss, which `Model/ActionProfile` leaves out, is printed and read.
The group selector is the built-in one, whose `add_member_to_group` does nothing.
-/

namespace Bm.Save
open Spec
variable {D : Type}

/-- `serialize` and `deserialize` of `ActionEntry`: the latter changes an entry; `new` is a default-constructed one.
`/repo/src/bm_sim/match_tables.cpp:57-74`. -/
structure EntIO (D A : Type) where
  new : A
  save : A → Option (List (Tok D))
  load : A → List (Tok D) → Option (A × List (Tok D))

/-- The entries of the code. -/
def entIO (D : Type) (o : Objs) : EntIO D MT.ActEntry where
  new := {}
  save := saveAct o
  load := loadAct o

/-- Numbers, one per line. -/
def putNums (l : List Nat) : List (Tok D) := l.map fun n => .num (n : Nat)

/-- `n` numbers. -/
def readNums : Nat → List (Tok D) → Option (List Nat × List (Tok D))
  | 0, ts => some ([], ts)
  | n + 1, ts => do
    let (x, ts) ← readNum ts
    let (l, ts) ← readNums n ts
    return (x.toNat :: l, ts)

/-- `IndirectIndexRefCount::serialize`.  `/repo/src/bm_sim/action_profile.cpp:23-29`. -/
def saveCounts (rc : RefCounts) : List (Tok D) :=
  [.num rc.mbr.length] ++ putNums rc.mbr ++ [.num rc.grp.length] ++ putNums rc.grp

/-- `IndirectIndexRefCount::deserialize`: all counts are overwritten.  `/repo/src/bm_sim/action_profile.cpp:31-40`. -/
def loadCounts (ts : List (Tok D)) : Option (RefCounts × List (Tok D)) := do
  let (n, ts) ← readNum ts
  let (m, ts) ← readNums n.toNat ts
  let (n, ts) ← readNum ts
  let (g, ts) ← readNums n.toNat ts
  return ({ mbr := m, grp := g }, ts)

/-- The loop of `GroupInfo::deserialize`.  `/repo/src/bm_sim/action_profile.cpp:91-95`. -/
def loadGroup : Nat → List Nat → List (Tok D) → Option (List Nat × List (Tok D))
  | 0, g, ts => some (g, ts)
  | n + 1, g, ts => do
    let (x, ts) ← readNum ts
    loadGroup n (Ras.add g x.toNat).2 ts

section prof
variable {A : Type}

/-- One pass of the first loop of `ActionProfile::serialize`.  `/repo/src/bm_sim/action_profile.cpp:543-546`. -/
def saveMember (io : EntIO D A) (p : AProf A) (m : Nat) : Option (List (Tok D)) := do
  let a ← p.entries[m]?
  let ts ← io.save a
  return .num (m : Nat) :: ts

/-- One pass of the second loop, `GroupInfo::serialize`.  `/repo/src/bm_sim/action_profile.cpp:549-552,82-86`. -/
def saveGroup (p : AProf A) (g : Nat) : Option (List (Tok D)) := do
  let l ← p.groups[g]?
  return [.num (g : Nat), .num l.length] ++ putNums l

/-- `ActionProfile::serialize`.  `/repo/src/bm_sim/action_profile.cpp:538-553`. -/
def saveProf (io : EntIO D A) (p : AProf A) : Option (List (Tok D)) := do
  let ms ← p.mbrH.iterate
  let ms ← ms.mapM (saveMember io p)
  let gs ← p.grpH.iterate
  let gs ← gs.mapM (saveGroup p)
  return [.num p.entries.length, .num p.numMembers] ++ ms.flatten ++ saveCounts p.rc ++ [.num p.numGroups] ++ gs.flatten

/-- One pass of the first loop of `ActionProfile::deserialize`.  `/repo/src/bm_sim/action_profile.cpp:561-566`. -/
def loadMember (io : EntIO D A) (p : AProf A) (ts : List (Tok D)) : Option (AProf A × List (Tok D)) := do
  let (m, ts) ← readNum ts
  let (ok, mbrH) ← p.mbrH.setHandle m.toNat
  if !ok then none
  let a ← p.entries[m.toNat]?
  let (a, ts) ← io.load a ts
  return ({ p with mbrH := mbrH, entries := p.entries.set m.toNat a }, ts)

/-- The loop.  `/repo/src/bm_sim/action_profile.cpp:560-566`. -/
def loadMembers (io : EntIO D A) : Nat → AProf A → List (Tok D) → Option (AProf A × List (Tok D))
  | 0, p, ts => some (p, ts)
  | n + 1, p, ts => do
    let (p, ts) ← loadMember io p ts
    loadMembers io n p ts

/-- One pass of the second loop: `insert_group`, then the members are added.
`/repo/src/bm_sim/action_profile.cpp:570-577,88-96`. -/
def loadOneGroup (p : AProf A) (ts : List (Tok D)) : Option (AProf A × List (Tok D)) := do
  let (g, ts) ← readNum ts
  let (ok, grpH) ← p.grpH.setHandle g.toNat
  if !ok then none
  let gs ← AProf.insertGroup p.groups g.toNat
  let (n, ts) ← readNum ts
  let l ← gs[g.toNat]?
  let (l, ts) ← loadGroup n.toNat l ts
  return ({ p with grpH := grpH, groups := gs.set g.toNat l }, ts)

/-- The loop.  `/repo/src/bm_sim/action_profile.cpp:569-577`. -/
def loadGroups : Nat → AProf A → List (Tok D) → Option (AProf A × List (Tok D))
  | 0, p, ts => some (p, ts)
  | n + 1, p, ts => do
    let (p, ts) ← loadOneGroup p ts
    loadGroups n p ts

/-- `action_entries.resize(n)`. -/
def resizeEntries (io : EntIO D A) (l : List A) (n : Nat) : List A := l.take n ++ List.replicate (n - l.length) io.new

/-- `ActionProfile::deserialize`.  `/repo/src/bm_sim/action_profile.cpp:555-580`. -/
def loadProf (io : EntIO D A) (p : AProf A) (ts : List (Tok D)) : Option (AProf A × List (Tok D)) := do
  let (s, ts) ← readNum ts
  let (n, ts) ← readNum ts
  let (p, ts) ← loadMembers io n.toNat { p with entries := resizeEntries io p.entries s.toNat, numMembers := n.toNat } ts
  let (rc, ts) ← loadCounts ts
  let (k, ts) ← readNum ts
  loadGroups k.toNat { p with rc := rc, numGroups := k.toNat } ts

end prof

/-! ## Tables -/

/-- `IndirectIndex::serialize`, `deserialize`.  `/repo/src/bm_sim/action_profile.cpp:43-53`. -/
def idxIO (D : Type) : ValIO D Nat where
  save w := some [.num w]
  load ts := (readNum ts).map fun (n, ts) => (n.toNat, ts)

/-- `>>` to a `bool`. -/
def readBool (ts : List (Tok D)) : Option (Bool × List (Tok D)) :=
  match readNum ts with
  | some (0, ts) => some (false, ts)
  | some (1, ts) => some (true, ts)
  | _ => none

/-- `if (default_set) default_index.deserialize(in, objs)`.  `/repo/src/bm_sim/match_tables.cpp:962`. -/
def loadIdx (set : Bool) (cur : Nat) (ts : List (Tok D)) : Option (Nat × List (Tok D)) :=
  if set then (readNum ts).map fun (n, ts) => (n.toNat, ts) else some (cur, ts)

/-- What is fixed for the tables: names, and nodes after a miss. -/
structure TabNames (ι : Type) where
  o : Objs
  name : ι → List Char
  miss : ι → Option Nat

section tab
variable {t : TableKind} {R : Type}

/-- `MatchTableAbstract::serialize` and `MatchTableIndirect::serialize_`.
`/repo/src/bm_sim/match_tables.cpp:157-166,951-956`. -/
def saveITab (o : Objs) (name : List Char) (miss : Option Nat) (mio : MeterIO D R) (T : ITab t.str R) :
    Option (List (Tok D)) := do
  let u ← saveUnit (idxIO D) mio T.mu
  return putWord name ++ saveNode o miss ++ u ++ [.num (if T.defaultSet then 1 else 0)] ++
    (if T.defaultSet then [.num T.defaultIndex] else [])

/-- `MatchTableAbstract::deserialize` and `MatchTableIndirect::deserialize_`.
`/repo/src/bm_sim/match_tables.cpp:168-179,958-963`. -/
def loadITab (o : Objs) (name : List Char) (miss : Option Nat) (mio : MeterIO D R) (now : Nat) (T : ITab t.str R)
    (ts : List (Tok D)) : Option (ITab t.str R × List (Tok D)) := do
  let (w, ts) ← readWord ts
  if w ≠ name then none
  let (_, ts) ← loadNode o miss ts
  let (mu, ts) ← loadUnit (idxIO D) mio now T.mu ts
  let (b, ts) ← readBool ts
  let (w, ts) ← loadIdx b T.defaultIndex ts
  return ({ T with mu := mu, defaultSet := b, defaultIndex := w }, ts)

end tab

/-! ## The whole -/

section sys
variable {ι : Type} [DecidableEq ι] {kind : ι → TableKind} {R A : Type}

/-- `P4Objects::serialize`: the tables, in the order of the map, and the profile.
`/repo/src/bm_sim/P4Objects.cpp:2350-2357`. -/
def saveSys (nm : TabNames ι) (order : List ι) (io : EntIO D A) (mio : MeterIO D R) (s : ISys ι kind R A) :
    Option (List (Tok D)) := do
  let ts ← order.mapM fun i => saveITab nm.o (nm.name i) (nm.miss i) mio (s.tabs i)
  let p ← saveProf io s.prof
  return ts.flatten ++ p

/-- The loop over the tables.  `/repo/src/bm_sim/P4Objects.cpp:2365-2367`. -/
def loadTabs (nm : TabNames ι) (mio : MeterIO D R) (now : Nat) : List ι → ISys ι kind R A → List (Tok D) →
    Option (ISys ι kind R A × List (Tok D))
  | [], s, ts => some (s, ts)
  | i :: is, s, ts => do
    let (T, ts) ← loadITab nm.o (nm.name i) (nm.miss i) mio now (s.tabs i) ts
    loadTabs nm mio now is { s with tabs := upd s.tabs i T } ts

/-- `P4Objects::deserialize`.  `/repo/src/bm_sim/P4Objects.cpp:2364-2370`. -/
def loadSys (nm : TabNames ι) (order : List ι) (io : EntIO D A) (mio : MeterIO D R) (now : Nat) (s : ISys ι kind R A)
    (ts : List (Tok D)) : Option (ISys ι kind R A × List (Tok D)) := do
  let (s, ts) ← loadTabs nm mio now order s ts
  let (p, ts) ← loadProf io s.prof ts
  return ({ s with prof := p }, ts)

end sys
end Bm.Save
