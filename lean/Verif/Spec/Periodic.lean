import Verif.Model.Periodic

/-!
# What is expected of periodic tasks
-/

namespace Bm.Periodic.Spec

/-- Task `t` is registered after the events (the last one first): the last one that registers or unregisters it
registers it. -/
def registered (t : Nat) : List Ev → Bool
  | [] => false
  | .register u :: es => if u = t then true else registered t es
  | .unregister u :: es => if u = t then false else registered t es
  | _ :: es => registered t es

/-- The task the loop waits for after the events (the last one first). -/
def waitsFor : List Ev → Option Nat
  | [] => none
  | .enter u :: _ => some u
  | .wake _ _ :: _ => none
  | _ :: es => waitsFor es

/-- No task is unregistered while the loop waits for it, and nobody calls `start` between the two parts of `join`
(the events have the last one first). -/
def Calm : List Ev → Prop
  | [] => True
  | .unregister t :: es => waitsFor es ≠ some t ∧ Calm es
  | .start :: es => (Ev.join ∉ es) ∧ Calm es
  | _ :: es => Calm es

/-- The interval of a task. -/
def intervalOf (t : Nat) : List Obs → Option Nat
  | [] => none
  | .made u iv _ :: l => if u = t then some iv else intervalOf t l
  | _ :: l => intervalOf t l

/-- When a task is to be executed next: one interval after its construction or its last execution. -/
def dueAt (t : Nat) : List Obs → Option Nat
  | [] => none
  | .made u iv at_ :: l => if u = t then some (at_ + iv) else dueAt t l
  | .exec u _ e :: l => if u = t then (intervalOf t l).map (e + ·) else dueAt t l

/-- No task is executed before it is due (observations with the last one first). -/
def Punctual : List Obs → Prop
  | [] => True
  | .made _ _ _ :: l => Punctual l
  | .exec t b _ :: l => (∃ x, dueAt t l = some x ∧ x ≤ b) ∧ Punctual l

/-- When an observation ends. -/
def Obs.until_ : Obs → Nat
  | .made _ _ a => a
  | .exec _ _ e => e

/-- When an observation begins. -/
def Obs.from_ : Obs → Nat
  | .made _ _ a => a
  | .exec _ b _ => b

/-- What happens later begins when what happened before is over: no two executions overlap. -/
def Sequential (l : List Obs) : Prop :=
  (∀ o ∈ l, Obs.from_ o ≤ Obs.until_ o) ∧ l.Pairwise fun later earlier => Obs.until_ earlier ≤ Obs.from_ later

end Bm.Periodic.Spec
