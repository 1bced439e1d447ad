import Mathlib.Logic.Function.Basic
import Mathlib.Algebra.BigOperators.Group.Finset.Basic

/-!
# Specification of the egress queues (C25, C26)

Every pair (queue, priority) is a waiting line.  Accepted packets join the end of their line with a
departure time: not before the current time and not before the previous departure time of the line
plus one service interval.
-/

namespace Bm.Spec.Queueing

/-- Waiting lines and configuration. -/
structure Lines (T : Type) where
  /-- packets inside, with departure times, oldest first -/
  line : Nat → Nat → List (T × Int) := fun _ _ => []
  depth : Nat → Nat → Nat
  interval : Nat → Nat → Nat
  /-- last departure time given out; all lines of a queue start when the queue is first used -/
  last : Nat → Option (Nat → Int) := fun _ => none

variable {T : Type}

/-- Replace one line. -/
def upd2 {α : Type} (f : Nat → Nat → α) (q p : Nat) (v : α) : Nat → Nat → α :=
  Function.update f q (Function.update (f q) p v)

/-- The queue is used at time `t`. -/
def Lines.touch (S : Lines T) (q : Nat) (t : Int) : Lines T :=
  { S with last := Function.update S.last q (some ((S.last q).getD fun _ => t)) }

/-- The departure time of a packet that arrives at time `t1` in a queue which was in use. -/
def Lines.sched (S : Lines T) (q p : Nat) (t1 : Int) : Int :=
  max t1 (((S.last q).getD (fun _ => t1)) p + S.interval q p)

/-- The packet `x` joins its line at time `t1`. -/
def Lines.join (S : Lines T) (q p : Nat) (x : T) (t1 : Int) : Lines T :=
  { S with
    line := upd2 S.line q p (S.line q p ++ [(x, S.sched q p t1)])
    last := Function.update S.last q
      (some (Function.update ((S.last q).getD fun _ => t1) p (S.sched q p t1))) }

/-- The first packet of a line leaves. -/
def Lines.leave (S : Lines T) (q p : Nat) : Lines T :=
  { S with line := upd2 S.line q p (S.line q p).tail }

/-- A packet of this line may leave at time `t`. -/
def Lines.Ready (S : Lines T) (q p : Nat) (t : Int) : Prop :=
  ∃ x s, (x, s) ∈ S.line q p ∧ s ≤ t

/-- The packet that a worker gets at time `t`, when `mine` tells which queues it serves: the first
of a line that is ready, of the highest priority for which there is such a line, with the earliest
departure time among the packets of that priority. -/
def Lines.Next (S : Lines T) (mine : Nat → Prop) (t : Int) (q p : Nat) (x : T) : Prop :=
  mine q ∧
  (∃ s, (S.line q p).head? = some (x, s) ∧ s ≤ t ∧
    ∀ q' x' s', mine q' → (x', s') ∈ S.line q' p → s ≤ s') ∧
  ∀ q' p', mine q' → p < p' → ¬ S.Ready q' p' t

/-- Packets inside a queue. -/
def Lines.count (S : Lines T) (nbPri q : Nat) : Nat :=
  ∑ p ∈ Finset.range nbPri, (S.line q p).length

end Bm.Spec.Queueing
