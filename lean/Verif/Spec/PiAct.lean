import Verif.Spec.Profile
import Verif.Spec.PiEntry

/-!
# What PI clients see of an action profile (C94)

Handles are 64-bit numbers: a member has its number, a group its number plus 2^63.  Calls do what the
corresponding operation of `Verif.Spec.Profile` does, with action parameters given as big-endian
numbers one after the other.  The result of a fetch is read field by field (numbers in it are in the
byte order of the machine, least significant byte first).
-/

namespace Bm.PiAct.Spec

open Bm.Spec Bm.PiEntry.Spec

/-- An action with the values of its parameters. -/
structure Act where
  id : Nat
  vals : List Int
deriving DecidableEq, Repr

/-- Bit widths of the parameters of the actions. -/
abbrev Info := Nat → Option (List Nat)

/-- The bytes are the values, each in as many bytes as its width needs. -/
inductive Splits : List Nat → Bytes → List Int → Prop
  | nil : Splits [] [] []
  | cons {w ws x a b vs} : IsNum w x a → Splits ws b vs → Splits (w :: ws) (a ++ b) ((x : Int) :: vs)

/-- The action `id` with data `b`. -/
def Means (inf : Info) (id : Nat) (b : Bytes) (a : Act) : Prop :=
  a.id = id ∧ ∃ ws, inf id = some ws ∧ Splits ws b a.vals

/-- Calls. -/
inductive Call
  | mbrCreate (id : Nat) (data : Bytes)
  | mbrDelete (h : UInt64)
  | mbrModify (h : UInt64) (id : Nat) (data : Bytes)
  | grpCreate
  | grpDelete (g : UInt64)
  | grpAdd (g m : UInt64)
  | grpRemove (g m : UInt64)
deriving Repr

/-- Results. -/
inductive Res
  | ok
  | handle (h : UInt64)
  | error (e : PErr)
deriving DecidableEq, Repr

/-- The handle of a member: below 2^32. -/
def IsMbr (h : UInt64) : Prop := h.toNat < 2 ^ 32

/-- The handle of a group: 2^63 and a number below 2^32. -/
def IsGrp (h : UInt64) : Prop := ∃ g, g < 2 ^ 32 ∧ h.toNat = 2 ^ 63 + g

/-- Handles are of the right kind, data belong to the action. -/
def Call.Proper (inf : Info) : Call → Prop
  | .mbrCreate id b => ∃ a, Means inf id b a
  | .mbrDelete h => IsMbr h
  | .mbrModify h id b => IsMbr h ∧ ∃ a, Means inf id b a
  | .grpCreate => True
  | .grpDelete g => IsGrp g
  | .grpAdd g m => IsGrp g ∧ IsMbr m
  | .grpRemove g m => IsGrp g ∧ IsMbr m

/-- How a result is reported. -/
inductive Reports {ι : Type} {K : ι → Type} {A : Type} : POut ι K A → Res → Prop
  | done : Reports .done .ok
  | err {e} : Reports (.err e) (.error e)

variable {ι : Type} [DecidableEq ι] {K : ι → Type}

/-- What a call may do. -/
def Step (inf : Info) (c : PCfg ι K) (s : PState ι K Act) : Call → Res → PState ι K Act → Prop
  | .mbrCreate id b, r, s' => ∃ a m h, Means inf id b a ∧ PStep c s (.addMember (some a)) s' (.id m) ∧
      r = .handle h ∧ h.toNat = m ∧ IsMbr h
  | .mbrDelete h, r, s' => ∃ o, PStep c s (.delMember h.toNat) s' o ∧ Reports o r
  | .mbrModify h id b, r, s' => ∃ a o, Means inf id b a ∧ PStep c s (.modMember h.toNat (some a)) s' o ∧
      Reports o r
  | .grpCreate, r, s' => ∃ g h, PStep c s .newGroup s' (.id g) ∧ r = .handle h ∧ h.toNat = 2 ^ 63 + g ∧ IsGrp h
  | .grpDelete g, r, s' => ∃ o, PStep c s (.delGroup (g.toNat - 2 ^ 63)) s' o ∧ Reports o r
  | .grpAdd g m, r, s' => ∃ o, PStep c s (.join m.toNat (g.toNat - 2 ^ 63)) s' o ∧ Reports o r
  | .grpRemove g m, r, s' => ∃ o, PStep c s (.leave m.toNat (g.toNat - 2 ^ 63)) s' o ∧ Reports o r

/-- A number in `k` bytes, least significant first, and the bytes after it. -/
def le : Nat → Bytes → Option (Nat × Bytes)
  | 0, l => some (0, l)
  | _ + 1, [] => none
  | k + 1, b :: l => (le k l).map fun x => (b.toNat + 256 * x.1, x.2)

/-- One member: handle, action, size of the data, data. -/
def readMember (l : Bytes) : Option ((Nat × Nat × Bytes) × Bytes) := do
  let (h, l) ← le 8 l
  let (id, l) ← le 4 l
  let (n, l) ← le 4 l
  if n ≤ l.length then some ((h, id, l.take n), l.drop n) else none

/-- `n` members and nothing else. -/
def readMembers : Nat → Bytes → Option (List (Nat × Nat × Bytes))
  | 0, [] => some []
  | 0, _ :: _ => none
  | n + 1, l => do
    let (m, r) ← readMember l
    let ms ← readMembers n r
    some (m :: ms)

/-- One group: handle, number of members, position of the first one in `hs`. -/
def readGroup (hs : List UInt64) (l : Bytes) : Option ((Nat × List UInt64) × Bytes) := do
  let (g, l) ← le 8 l
  let (n, l) ← le 4 l
  let (off, l) ← le 4 l
  if off + n ≤ hs.length then some ((g, (hs.drop off).take n), l) else none

/-- `n` groups and nothing else. -/
def readGroups (hs : List UInt64) : Nat → Bytes → Option (List (Nat × List UInt64))
  | 0, [] => some []
  | 0, _ :: _ => none
  | n + 1, l => do
    let (g, r) ← readGroup hs l
    let gs ← readGroups hs n r
    some (g :: gs)

/-- Actions have numbers of 32 bits, parameters at least one bit, the data of an action fewer than
2^32 bytes. -/
def Info.Ok (inf : Info) : Prop :=
  ∀ id ws, inf id = some ws → id < 2 ^ 32 ∧ (∀ w ∈ ws, 1 ≤ w) ∧ (ws.map fun w => (w + 7) / 8).sum < 2 ^ 32

/-- What a fetch shows are the members of the profile. -/
def ShowsMembers (inf : Info) (s : PState ι K Act) (n : Nat) (bytes : Bytes) : Prop :=
  ∃ ms, readMembers n bytes = some ms ∧ (ms.map fun x => x.1).Pairwise (· < ·) ∧
    ∀ h id b, (h, id, b) ∈ ms ↔ ∃ a, s.mem h = some a ∧ Means inf id b a

/-- What a fetch shows are the groups of the profile. -/
def ShowsGroups (s : PState ι K Act) (hs : List UInt64) (n : Nat) (bytes : Bytes) : Prop :=
  ∃ gs, readGroups hs n bytes = some gs ∧ (gs.map fun x => x.1).Pairwise (· < ·) ∧
    (∀ h l, (h, l) ∈ gs → ∃ g G, h = 2 ^ 63 + g ∧ s.grp g = some G ∧ Lists (l.map UInt64.toNat) G) ∧
    ∀ g G, s.grp g = some G → 2 ^ 63 + g ∈ gs.map fun x => x.1

end Bm.PiAct.Spec
