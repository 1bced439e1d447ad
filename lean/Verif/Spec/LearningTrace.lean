import Verif.Model.Learning
import Verif.Spec.Learning

/-!
# What happens to the notifications, and what the controller sees (C27)

Only the types of operations and results come from the model.
-/

namespace Bm.Spec.Learn

open Bm.Learn (Op Res Msg)

variable {T : Type}

/-- One operation on the notifications. -/
def Step (S : Notes T) : Op T → Res T → Notes T → Prop
  | .learn x, r, S' => r = .ok ∧
    ((S.Outstanding x ∧ S' = S) ∨ (¬ S.Outstanding x ∧ (S.add x).MayClose S'))
  | .wake, r, S' => (r = .waits ∧ S' = S) ∨ (r = .ok ∧ S.closed = none ∧ S' = S.close)
  | .transmit e, r, S' =>
    (r = .waits ∧ S' = S ∧ (S.busy = true ∨ (S.closed = none ∧ (e = false ∨ S.note S.cur = [])))) ∨
    (∃ b, S.busy = false ∧ r = .msg ⟨b, (S.note b).length, S.note b⟩ ∧ S.note b ≠ [] ∧
      ((S.closed = some b ∧ S' = { S with busy := true }) ∨
       (S.closed = none ∧ e = true ∧ b = S.cur ∧ S' = { S.close with busy := true })))
  | .transmitEnd, r, S' =>
    (r = .waits ∧ S.busy = false ∧ S' = S) ∨
    (r = .ok ∧ S.busy = true ∧ S' = { S with busy := false, closed := none })
  | .ack b ids, r, S' => r = .ok ∧ S' = S.ack b (ids.map Int.toNat)
  | .ackBuffer b, r, S' => r = .ok ∧ S' = S.ackAll b
  | .setMax _, r, S' => r = .ok ∧ S.MayClose S'
  | .reset, r, S' => r = .ok ∧ S' = {}

/-- A sequence of operations on the notifications. -/
inductive Hist : List (Op T × Res T) → Notes T → Prop
  | nil : Hist [] {}
  | snoc {t S S'} (op : Op T) (r : Res T) : Hist t S → Step S op r S' → Hist (t ++ [(op, r)]) S'

/-- What an observer of the calls knows: the messages sent and the acknowledgements made since the
last reset, whether the sender is at work, and the configured maximum. -/
structure Seen (T : Type) where
  msgs : List (Msg T) := []
  acked : Nat → Nat → Bool := fun _ _ => false
  busy : Bool := false
  max : Nat

/-- Keeping the record. -/
def Seen.next (V : Seen T) : Op T × Res T → Seen T
  | (.transmit _, .msg m) => { V with msgs := V.msgs ++ [m], busy := true }
  | (.transmitEnd, _) => { V with busy := false }
  | (.ack b ids, _) =>
    { V with acked := Function.update V.acked b fun i => V.acked b i || decide ((i : Int) ∈ ids) }
  | (.ackBuffer b, _) => { V with acked := Function.update V.acked b fun _ => true }
  | (.setMax n, _) => { V with max := n }
  | (.reset, _) => { max := V.max }
  | _ => V

/-- The record after a trace. -/
def seen (m : Nat) (t : List (Op T × Res T)) : Seen T := t.foldl Seen.next { max := m }

/-- A careful controller acknowledges only samples of messages it has received, none of them twice
(but a whole notification may be acknowledged again), and does not reset the switch while a message
is being sent. -/
def Careful (V : Seen T) : Op T → Prop
  | .ack b ids => ∃ m ∈ V.msgs, m.id = b ∧ ids.Nodup ∧
      ∀ i ∈ ids, 0 ≤ i ∧ i.toNat < m.samples.length ∧ V.acked b i.toNat = false
  | .ackBuffer b => ∃ m ∈ V.msgs, m.id = b ∧
      ((∀ i, V.acked b i = false) ∨ ∀ i < m.samples.length, V.acked b i = true)
  | .reset => V.busy = false
  | _ => True

end Bm.Spec.Learn
