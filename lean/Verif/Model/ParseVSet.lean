import Verif.Model.Extract

/-!
# Model of the parser value sets and of the cases of a select

Transcribes `/repo/src/bm_sim/parser.cpp:520-833`.  A value set keeps its values unmodified in a base
set; every select case on the value set has a shadow of it, with the values laid out like the keys of
that state and masked.  Sets are lists without duplicates (`std::unordered_set`).  Failed assertions
and reads outside a `ByteContainer` are `none`.  Locks are omitted.
-/

namespace Bm.VSet

open Bm.Extract

/-- A `ParseVSetCommon`.  `widths` are the widths of the fields of the key, `none` for the base
(`with_padding = false`); `mask` is set for `ParseVSetMask`.  `/repo/src/bm_sim/parser.cpp:520-665`. -/
structure Shadow where
  /-- `compressed_bitwidth` -/
  cbits : Nat
  /-- `bitwidths` -/
  widths : Option (List Nat)
  /-- `ParseVSetMask::mask` -/
  mask : Option Bytes
  /-- `set` -/
  set : List Bytes := []
  deriving Repr, DecidableEq

/-- `compute_width`.  `/repo/src/bm_sim/parser.cpp:613-621`. -/
def Shadow.width (s : Shadow) : Nat :=
  match s.widths with
  | none => (s.cbits + 7) / 8
  | some ws => (ws.map fun w => (w + 7) / 8).sum

/-- The loop of `do_padding`; `src` and `offset` are the position in the value.
`/repo/src/bm_sim/parser.cpp:581-588`. -/
def padLoop (src : Bytes) (offset : Nat) : List Nat → Option Bytes
  | [] => some []
  | w :: ws => do
    let d ← genericExtract src offset w
    let offset := offset + w
    return d ++ (← padLoop (src.drop (offset / 8)) (offset % 8) ws)

/-- `do_padding`.  `/repo/src/bm_sim/parser.cpp:567-596`. -/
def doPadding (widths : Option (List Nat)) (v : Bytes) : Option Bytes :=
  match widths with
  | none => some v
  | some ws =>
    if ws.length = 1 then some v
    else if v.length = (ws.sum + 7) / 8 then padLoop v (8 * v.length - ws.sum) ws
    else none

/-- `transform_input`.  `/repo/src/bm_sim/parser.cpp:599-601,609-611,654-662`. -/
def transform (mask : Option Bytes) (v : Bytes) : Option Bytes :=
  match mask with
  | none => some v
  | some m => if v.length ≤ m.length then some (List.zipWith (· &&& ·) v m) else none

/-- The value stored for `v`, common to `add` and `remove`. -/
def Shadow.stored (s : Shadow) (v : Bytes) : Option Bytes := do
  let v ← transform s.mask (← doPadding s.widths v)
  if v.length = s.width then return v else none

/-- `ParseVSetCommon::add`.  `/repo/src/bm_sim/parser.cpp:532-538`. -/
def Shadow.add (s : Shadow) (v : Bytes) : Option Shadow := do
  return { s with set := List.insert (← s.stored v) s.set }

/-- `ParseVSetCommon::remove`.  `/repo/src/bm_sim/parser.cpp:540-546`. -/
def Shadow.remove (s : Shadow) (v : Bytes) : Option Shadow := do
  return { s with set := s.set.erase (← s.stored v) }

/-- `ParseVSetCommon::contains`.  `/repo/src/bm_sim/parser.cpp:548-554`. -/
def Shadow.contains (s : Shadow) (v : Bytes) : Option Bool := do
  let k ← transform s.mask v
  if v.length = s.width then return decide (k ∈ s.set) else none

/-- `ParseVSetCommon::clear`.  `/repo/src/bm_sim/parser.cpp:556-559`. -/
def Shadow.clear (s : Shadow) : Shadow := { s with set := [] }

/-- Requests for a value set.  `/repo/src/bm_sim/context.cpp:658-695`. -/
inductive Op
  | add (v : Bytes)
  | remove (v : Bytes)
  | clear
  deriving Repr, DecidableEq

/-- A request for one shadow. -/
def Shadow.exec (s : Shadow) : Op → Option Shadow
  | .add v => s.add v
  | .remove v => s.remove v
  | .clear => some s.clear

/-- `ParseVSet`: the shadows, the base first.  `/repo/include/bm/bm_sim/parser.h:161-197`,
`/repo/src/bm_sim/parser.cpp:667-679`. -/
structure VSet where
  base : Shadow
  shadows : List Shadow
  deriving Repr, DecidableEq

/-- A value set with the select cases using it, each given by the widths of its key and its mask.
`/repo/src/bm_sim/parser.cpp:667-679,792-833`. -/
def VSet.mk' (cbits : Nat) (cases : List (List Nat × Option Bytes)) : VSet :=
  ⟨⟨cbits, none, none, []⟩, cases.map fun (ws, m) => ⟨cbits, some ws, m, []⟩⟩

/-- `ParseVSet::add`, `remove`, `clear`.  `/repo/src/bm_sim/parser.cpp:681-702`. -/
def VSet.exec (s : VSet) (op : Op) : Option VSet := do
  return ⟨← s.base.exec op, ← s.shadows.mapM (·.exec op)⟩

/-- A history of requests. -/
def VSet.run (s : VSet) : List Op → Option VSet
  | [] => some s
  | op :: ops => do (← s.exec op).run ops

/-- `ParseVSet::get`.  `/repo/src/bm_sim/parser.cpp:714-718`. -/
def VSet.get (s : VSet) : List Bytes := s.base.set

/-- `ParseVSet::size`.  `/repo/src/bm_sim/parser.cpp:704-707`. -/
def VSet.size (s : VSet) : Nat := s.base.set.length

/-- `ParseVSet::contains`.  `/repo/src/bm_sim/parser.cpp:693-696`. -/
def VSet.contains (s : VSet) (v : Bytes) : Option Bool := s.base.contains v

/-- `ParseSwitchCase::match`.  `/repo/src/bm_sim/parser.cpp:736-744`. -/
def caseMatch (key input : Bytes) : Bool := decide (key = input)

/-- `mask_key`, done at construction, with the assertion of the constructor.
`/repo/src/bm_sim/parser.cpp:748-754,786-790`. -/
def maskKey (key mask : Bytes) : Option Bytes :=
  if key.length = mask.length then some (List.zipWith (· &&& ·) key mask) else none

/-- `ParseSwitchCaseWithMask::match`; the key is already masked.
`/repo/src/bm_sim/parser.cpp:775-784`. -/
def caseMaskMatch : Bytes → Bytes → Bytes → Option Bool
  | [], _, _ => some true
  | k :: ks, m :: ms, b :: bs => if k = b &&& m then caseMaskMatch ks ms bs else some false
  | _ :: _, _, _ => none

end Bm.VSet
