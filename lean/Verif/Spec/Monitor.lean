import Verif.Model.Monitor
import Mathlib.Data.List.Perm.Basic

/-!
# What is asked of queues shared by threads
-/

namespace Bm.Monitor.Spec

variable {T : Type}

/-- The elements put in queue `k`, in order. -/
def pushedIn (k : Nat) : List (Ev T) → List T
  | [] => []
  | .pushed k' x :: es => if k' = k then x :: pushedIn k es else pushedIn k es
  | _ :: es => pushedIn k es

/-- The elements taken from queue `k`, in order. -/
def poppedFrom (k : Nat) : List (Ev T) → List T
  | [] => []
  | .popped k' x :: es => if k' = k then x :: poppedFrom k es else poppedFrom k es
  | _ :: es => poppedFrom k es

/-- The calls of `push_front`: queue and element. -/
def calls : List (Label T) → List (Nat × T)
  | [] => []
  | .callPush _ k x _ :: ls => (k, x) :: calls ls
  | _ :: ls => calls ls

/-- The calls of `push_front` that are over: the element was put in the queue or refused. -/
def settled : List (Ev T) → List (Nat × T)
  | [] => []
  | .pushed k x :: es => (k, x) :: settled es
  | .refused k x :: es => (k, x) :: settled es
  | .popped _ _ :: es => settled es

/-- The call of `push_front` a thread is in, before it is settled. -/
def inCall : TS T → Option (Nat × T)
  | .pushing k x _ => some (k, x)
  | .sleepW k x => some (k, x)
  | _ => none

/-- Nothing moves until a function is called (or a thread wakes up for no reason): every thread is outside
the object or asleep. -/
def Quiet (s : St T) : Prop :=
  ∀ t ∈ s.threads, t = .idle ∨ t = .sleepR ∨ ∃ k x, t = .sleepW k x

/-- Some thread waits to put an element in queue `k`. -/
def WriterAsleep (s : St T) (k : Nat) : Prop := ∃ x, TS.sleepW k x ∈ s.threads

/-- Some thread waits for an element. -/
def ReaderAsleep (s : St T) : Prop := TS.sleepR ∈ s.threads

/-- `set_capacity` is not called. -/
def NoSetCap (l : Label T) : Prop := ∀ k c, l ≠ .setCap k c

/-- The step is a thread going on in a function of the object. -/
def GoesOn : Label T → Prop
  | .test _ => True
  | .notify _ _ => True
  | _ => False

/-- A newly made object of one of the two classes, and threads that are not using it yet. -/
def IsNew (s : St T) : Prop :=
  (∃ c n, s = newQueue c n) ∨ ∃ hi lo n, s = newInputBuffer hi lo n

/-- The way the threads of psa_switch use `input_buffer`, which blocks: only the ingress thread, thread 0,
takes packets, and nobody changes the capacity. -/
def PsaUse (l : Label T) : Prop :=
  (∀ i, l = .callPop i → i = 0) ∧ (∀ i k x b, l = .callPush i k x b → b = true) ∧ NoSetCap l

/-- The way the threads of simple_switch use `input_buffer`: only the ingress thread, thread 0, takes packets;
what it pushes are resubmitted packets, that need not be kept. -/
def SimpleUse (l : Label T) : Prop :=
  (∀ i, l = .callPop i → i = 0) ∧ (∀ k x b, l = .callPush 0 k x b → b = false) ∧ NoSetCap l

/-- The thread is in `push_front`. -/
def InPush : TS T → Prop
  | .pushing _ _ _ => True
  | .sleepW _ _ => True
  | _ => False

end Bm.Monitor.Spec
