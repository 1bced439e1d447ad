import Mathlib.Data.Finset.Card
import Mathlib.Data.Finset.Range
import Mathlib.Logic.Function.Basic

/-!
# Specification of learning (C27)

Notifications are numbered.  Samples join the open notification `cur`; closed ones are sent one at a
time.  A sample is outstanding while some occurrence of it has not been acknowledged.
-/

namespace Bm.Spec.Learn

/-- The notifications. -/
structure Notes (T : Type) where
  note : Nat → List T := fun _ => []
  cur : Nat := 0
  acked : Nat → Nat → Bool := fun _ _ => false
  /-- closed and not yet dealt with by the sender -/
  closed : Option Nat := none
  /-- the sender is at work on `closed` -/
  busy : Bool := false

variable {T : Type}

/-- Positions in notification `b` that have not been acknowledged. -/
def Notes.unacked (S : Notes T) (b : Nat) : Finset Nat :=
  (Finset.range (S.note b).length).filter fun i => S.acked b i = false

/-- The sample occurs at position `i` of notification `b`, unacknowledged. -/
def Notes.At (S : Notes T) (b i : Nat) (x : T) : Prop :=
  (S.note b)[i]? = some x ∧ S.acked b i = false

/-- Reported and not acknowledged. -/
def Notes.Outstanding (S : Notes T) (x : T) : Prop := ∃ b i, S.At b i x

/-- The sample joins the open notification. -/
def Notes.add (S : Notes T) (x : T) : Notes T :=
  { S with note := Function.update S.note S.cur (S.note S.cur ++ [x]) }

/-- The open notification is closed. -/
def Notes.close (S : Notes T) : Notes T :=
  { S with cur := S.cur + 1, closed := if S.note S.cur = [] then none else some S.cur }

/-- `S'` is `S`, possibly after closing the open notification, which requires that no closed one is
waiting. -/
def Notes.MayClose (S S' : Notes T) : Prop := S' = S ∨ (S.closed = none ∧ S' = S.close)

/-- Positions `ids` of notification `b` are acknowledged. -/
def Notes.ack (S : Notes T) (b : Nat) (ids : List Nat) : Notes T :=
  { S with acked := Function.update S.acked b fun i => S.acked b i || decide (i ∈ ids) }

/-- Notification `b` is acknowledged. -/
def Notes.ackAll (S : Notes T) (b : Nat) : Notes T :=
  { S with acked := Function.update S.acked b fun _ => true }

end Bm.Spec.Learn
