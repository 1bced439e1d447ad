import Mathlib.Data.Finset.Card
import Mathlib.Data.Finset.Filter

/-!
# What is said about the selection of members (C89)

From the calls and their results: which members each group has, and which of them are active.
-/

namespace Bm.PiSel.Spec

/-- Calls on a profile.  `A` are actions with data, `T` is what tables may do to the profile (they count references). -/
inductive Op (A T : Type)
  | addMember (a : Option A)
  | delMember (m : Nat)
  | modMember (m : Nat) (a : Option A)
  | newGroup
  | delGroup (g : Nat)
  | join (m g : Nat)
  | leave (m g : Nat)
  | activate (g m : Nat)
  | deactivate (g m : Nat)
  | reset
  | tables (t : T)

/-- Results. -/
inductive Out
  | ok
  | id (n : Nat)
  /-- the member is not in the group -/
  | notIn
  /-- other refusals -/
  | refused
deriving DecidableEq, Repr

/-- For each group, members and active members. -/
structure Sets where
  mbrs : Nat → Finset Nat := fun _ => ∅
  active : Nat → Finset Nat := fun _ => ∅

/-- `f` with the value at `g` changed. -/
def at1 (f : Nat → Finset Nat) (g : Nat) (x : Finset Nat) : Nat → Finset Nat := fun y => if y = g then x else f y

/-- One more call with its result.  A member is active when it joins. -/
def after1 {A T : Type} (s : Sets) : Op A T → Out → Sets
  | .delGroup g, .ok => ⟨at1 s.mbrs g ∅, at1 s.active g ∅⟩
  | .join m g, .ok => ⟨at1 s.mbrs g (insert m (s.mbrs g)), at1 s.active g (insert m (s.active g))⟩
  | .leave m g, .ok => ⟨at1 s.mbrs g ((s.mbrs g).erase m), at1 s.active g ((s.active g).erase m)⟩
  | .activate g m, .ok => ⟨s.mbrs, at1 s.active g (insert m (s.active g))⟩
  | .deactivate g m, .ok => ⟨s.mbrs, at1 s.active g ((s.active g).erase m)⟩
  | .reset, _ => ⟨fun _ => ∅, fun _ => ∅⟩
  | _, _ => s

/-- A history. -/
def afterAll {A T : Type} (s : Sets) : List (Op A T × Out) → Sets
  | [] => s
  | (op, o) :: t => afterAll (after1 s op o) t

/-- The element with exactly `hash mod n` elements below it. -/
def Picks (S : Finset Nat) (hash m : Nat) : Prop := m ∈ S ∧ (S.filter (· < m)).card = hash % S.card

end Bm.PiSel.Spec
