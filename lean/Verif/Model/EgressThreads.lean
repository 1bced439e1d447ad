import Verif.Model.QueueingRL

/-!
# Model of the egress queues used by threads

`QueueingLogicPriRL` and `QueueingLogicRL` (`/repo/include/bm/bm_sim/queueing.h`) with their mutex and condition
variables.  What a thread does while it holds the mutex is one step; `notify_one` is called with the mutex held, so it
belongs to the step of `push_front`; `wait` and `wait_until` release the mutex in the same step in which the thread
begins to sleep.  `notify_one` wakes one of the threads sleeping on the condition variable, any of them, and does
nothing if there is none.  A thread sleeping in `wait_until` may wake up when the clock has reached its time, and any
sleeping thread may wake up for no reason.  A thread that has woken up takes the mutex and evaluates the conditions
again.

Threads that push or change settings never sleep, so only threads that call `pop_back` are kept in the state.
-/

namespace Bm.EgressThreads
open Bm.Queueing (Res)

/-- What a call is: a push for worker `w`, an attempt to pop, or something else. -/
inductive Kind where
  | push (w : Nat)
  | pop
  | other
deriving DecidableEq

/-- A class of queues: its calls, which of them are pushes and pops, and what a blocked `pop_back` waits for. -/
structure Buf (T S Op : Type) where
  exec : S → Op → Option (Res T × S)
  kind : Op → Kind
  pop : Nat → Int → Op
  alarm : S → Nat → Option Int

/-- Where a thread is. -/
inductive TS where
  /-- not in `pop_back` -/
  | idle
  /-- in `pop_back`, about to take the mutex -/
  | popping (w : Nat)
  /-- in `wait`, or in `wait_until` with a time -/
  | asleep (w : Nat) (d : Option Int)
deriving DecidableEq, Repr

/-- The object and the threads that call `pop_back`. -/
structure Sys (S : Type) where
  obj : S
  threads : List TS

/-- What may happen next. -/
inductive Label (Op : Type) where
  /-- some thread makes a call other than `pop_back`; if an element is pushed, `notify_one` wakes thread `j`, or
  nobody -/
  | call (op : Op) (j : Option Nat)
  /-- thread `i` calls `pop_back` -/
  | callPop (i w : Nat)
  /-- thread `i` takes the mutex, and reads the clock -/
  | test (i : Nat) (now : Int)
  /-- the clock has reached the time thread `i` waits for -/
  | ring (i : Nat) (now : Int)
  /-- thread `i` wakes up for no reason -/
  | spurious (i : Nat)

variable {T S Op : Type}

/-- The thread sleeps on the condition variable of worker `w`. -/
def TS.sleepsOn (w : Nat) : TS → Bool
  | .asleep w' _ => w' = w
  | _ => false

/-- The thread is somewhere else. -/
def Sys.move (s : Sys S) (i : Nat) (t : TS) : Sys S := { s with threads := s.threads.set i t }

/-- `w_info.q_not_empty.notify_one()`.  `/repo/include/bm/bm_sim/queueing.h:272,288,518,544`. -/
def Sys.notify (s : Sys S) (w : Nat) : Option Nat → Option (Sys S)
  | none => if s.threads.any (TS.sleepsOn w) then none else some s
  | some j =>
    match s.threads[j]? with
    | some (.asleep w' _) => if w' = w then some (s.move j (.popping w)) else none
    | _ => none

/-- One step, with the call made if there is one; `none` if that cannot happen in this state.
`/repo/include/bm/bm_sim/queueing.h:262-316,505-598`. -/
def Sys.step (B : Buf T S Op) (s : Sys S) : Label Op → Option (Sys S × List (Op × Res T))
  | .call op j =>
    match B.exec s.obj op with
    | none => none
    | some (r, o) =>
      match B.kind op, r with
      | .pop, _ => none
      | .push w, .accepted => ({ s with obj := o }.notify w j).map fun s => (s, [(op, r)])
      | _, _ => if j = none then some ({ s with obj := o }, [(op, r)]) else none
  | .callPop i w =>
    match s.threads[i]? with
    | some .idle => some (s.move i (.popping w), [])
    | _ => none
  | .test i now =>
    match s.threads[i]? with
    | some (.popping w) =>
      match B.exec s.obj (B.pop w now) with
      | none => none
      | some (.blocked, o) => some ({ s with obj := o }.move i (.asleep w (B.alarm o w)), [(B.pop w now, .blocked)])
      | some (r, o) => some ({ s with obj := o }.move i .idle, [(B.pop w now, r)])
    | _ => none
  | .ring i now =>
    match s.threads[i]? with
    | some (.asleep w (some d)) => if d ≤ now then some (s.move i (.popping w), []) else none
    | _ => none
  | .spurious i =>
    match s.threads[i]? with
    | some (.asleep w _) => some (s.move i (.popping w), [])
    | _ => none

/-- A sequence of steps, with the calls made. -/
def Sys.run (B : Buf T S Op) (s : Sys S) : List (Label Op) → Option (Sys S × List (Op × Res T))
  | [] => some (s, [])
  | l :: ls =>
    match s.step B l with
    | none => none
    | some (s1, es) => (s1.run B ls).map fun r => (r.1, es ++ r.2)

/-- `next` after the loop over priorities when no element is ready: the earliest of the first times of the queues;
`none` is `time_point::max()`.  `/repo/include/bm/bm_sim/queueing.h:573-584`. -/
def nextTime (wi : Queueing.WInfo T) : Nat → Option Int
  | 0 => none
  | p + 1 =>
    match (wi.queues p).head?, nextTime wi p with
    | none, n => n
    | some e, none => some e.send
    | some e, some n => some (min e.send n)

/-- `QueueingLogicPriRL`.  `/repo/include/bm/bm_sim/queueing.h:480-821`. -/
def pri (F : Queueing.Fixed) : Buf T (Queueing.State T) (Queueing.Op T) where
  exec := Queueing.exec F
  kind
    | .push q _ _ _ _ => .push (F.worker q)
    | .pop _ _ => .pop
    | _ => .other
  pop := .pop
  alarm s w := if (s.workers w).size = 0 then none else nextTime (s.workers w) F.nbPri

/-- `QueueingLogicRL`.  `/repo/include/bm/bm_sim/queueing.h:243-462`. -/
def rl (F : QueueingRL.Fixed) : Buf T (QueueingRL.State T) (QueueingRL.Op T) where
  exec s op := some (QueueingRL.exec F s op)
  kind
    | .push q _ _ _ => .push (F.worker q)
    | .pop _ _ => .pop
    | _ => .other
  pop := .pop
  alarm := QueueingRL.alarm

/-- A new object, and `n` threads that are not using it yet.  `/repo/include/bm/bm_sim/queueing.h:253-257,492-498`. -/
def start (o : S) (n : Nat) : Sys S := { obj := o, threads := List.replicate n .idle }

end Bm.EgressThreads
