import Verif.Model.QueueLogic

/-!
# What `QueueingLogic` promises

In terms of the events so far and of what came of them.
-/

namespace Bm.QueueLogic.Spec

open Bm.QueueLogic (Ev Out Call Waiter)

variable {T : Type}

/-- What was pushed for worker `w`, oldest first, with the queues. -/
def pushedFor (map : Nat → Nat) (w : Nat) (os : List (Out T)) : List (T × Nat) :=
  os.filterMap fun
    | .pushed q item => if map q = w then some (item, q) else none
    | _ => none

/-- What worker `w` received. -/
def received (w : Nat) (os : List (Out T)) : List (T × Nat) :=
  os.filterMap fun
    | .popped w' q item => if w' = w then some (item, q) else none
    | _ => none

/-- What is there for worker `w`. -/
def pendingFor (map : Nat → Nat) (w : Nat) (os : List (Out T)) : List (T × Nat) := (pushedFor map w os).drop (received w os).length

/-- The number of elements of queue `q`. -/
def inside (map : Nat → Nat) (q : Nat) (os : List (Out T)) : Nat := (pendingFor map (map q) os).countP (fun x => x.2 = q)

/-- The capacity of queue `q`: the one set last for it or for all. -/
def capacity (cap : Nat) (q : Nat) : List (Ev T) → Nat
  | [] => cap
  | .setCapacity q' c :: es => capacity (if q' = q then c else cap) q es
  | .setCapacityForAll c :: es => capacity c q es
  | _ :: es => capacity cap q es

/-- What comes of a call when the mutex is there. -/
def outcome (map : Nat → Nat) (cap : Nat) (es : List (Ev T)) (os : List (Out T)) : Call T → Out T
  | .push q item => if inside map q os < capacity cap q es then .pushed q item else .waits
  | .pop w =>
    match pendingFor map w os with
    | [] => .waits
    | (item, q) :: _ => .popped w q item

/-- The calls made. -/
def made (es : List (Ev T)) : List (Call T) := es.filterMap fun | .call c _ => some c | _ => none

/-- The calls done. -/
def finished (os : List (Out T)) : List (Call T) :=
  os.filterMap fun | .pushed q item => some (.push q item) | .popped w _ _ => some (.pop w) | _ => none

/-- The number of threads which wait for worker `w` and have been woken up. -/
def wokenPops (w : Nat) (ws : List (Waiter T)) : Nat :=
  ws.countP fun | ⟨.pop w', b⟩ => w' = w && b | _ => false

/-- The number of threads which wait for room in queue `q` and have been woken up. -/
def wokenPushes (q : Nat) (ws : List (Waiter T)) : Nat :=
  ws.countP fun | ⟨.push q' _, b⟩ => q' = q && b | _ => false

/-- All workers asked for exist. -/
def Known (nb : Nat) (es : List (Ev T)) : Prop := ∀ w i, .call (.pop w) i ∈ es → w < nb

/-- The event makes no capacity larger. -/
def NoRaise (cap : Nat) (es : List (Ev T)) : Ev T → Prop
  | .setCapacity q c => c ≤ capacity cap q es
  | .setCapacityForAll c => ∀ q, c ≤ capacity cap q es
  | _ => True

/-- No event of the run makes a capacity larger. -/
def NeverRaised (cap : Nat) (es : List (Ev T)) : Prop := ∀ a e b, es = a ++ e :: b → NoRaise cap a e

end Bm.QueueLogic.Spec
