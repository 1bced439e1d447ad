import Mathlib.Data.List.Sort
import Verif.Model.Ageing

/-!
# Specification of ageing notifications (C28)

Only the types of operations and messages come from the model.
-/

namespace Bm.Spec.Ageing

open Bm.Ageing (Op Msg)

/-- Tables that are monitored, what the last sweep reported for each, and how many notifications were
sent (since the last reset). -/
structure St where
  known : List Nat := []
  last : Nat → List Nat := fun _ => []
  sent : Nat := 0

/-- One numbered message for each table that has something to report. -/
def number (b : Nat) : List (Nat × List Nat) → List Msg
  | [] => []
  | (t, hs) :: r => if hs = [] then number b r else ⟨b, t, hs.length, hs⟩ :: number (b + 1) r

/-- What a sweep reports for table `t`: the expired entries that the previous sweep did not report. -/
def St.report (S : St) (expired : Nat → List Nat) (t : Nat) : List Nat :=
  (expired t).filter fun h => decide (h ∉ S.last t)

/-- One operation. -/
def step (S : St) : Op → List Msg × St
  | .sweep e =>
    let ms := number S.sent (S.known.map fun t => (t, S.report e t))
    (ms, { S with last := fun t => if t ∈ S.known then S.report e t else [], sent := S.sent + ms.length })
  | .addTable id => ([], if id ∈ S.known then S else
      { S with known := S.known.orderedInsert (· ≤ ·) id })
  | .reset => ([], { S with last := fun _ => [], sent := 0 })

/-- A history. -/
def run (S : St) : List Op → List (List Msg) × St
  | [] => ([], S)
  | op :: ops => ((step S op).1 :: (run (step S op).2 ops).1, (run (step S op).2 ops).2)

/-- The messages mention entry `h` of table `t`. -/
def Mentions (ms : List Msg) (t h : Nat) : Prop := ∃ m ∈ ms, m.table = t ∧ h ∈ m.handles

instance (ms : List Msg) (t h : Nat) : Decidable (Mentions ms t h) := by
  unfold Mentions; infer_instance

end Bm.Spec.Ageing
