import Mathlib.Logic.Function.Basic

/-!
# Model of the queues shared by threads

`Queue` (`/repo/include/bm/bm_sim/queue.h:33-130`: the buffers of psa_switch, l2_switch and simple_router) and
`InputBuffer` of simple_switch (`/repo/targets/simple_switch/simple_switch.cpp:116-190`), with their mutex and
condition variables, used by any number of threads.

What a thread does while it holds the mutex is one step; `wait` releases the mutex in the same step in which
the thread begins to sleep.  The mutex is released before `notify_one` is called, so that is a step of its
own.  `notify_one` wakes one of the threads sleeping on the condition variable, any of them, and does nothing
if there is none.  A sleeping thread may also wake up for no reason.  A thread that has woken up takes the
mutex and evaluates the condition again.

The two classes are instances: `Queue` has one queue, `InputBuffer` two, the first one served first.  There is
a condition variable for each queue (`q_not_full`, `cvar_can_push_hi`, `cvar_can_push_lo`) and one for the
reader (`q_not_empty`, `cvar_can_pop`).
-/

namespace Bm.Monitor

/-- Where a thread is. -/
inductive TS (T : Type) where
  /-- not in a function of the object -/
  | idle
  /-- in `push_front`, about to evaluate the condition of the loop; `blk`: it is to wait if the queue is full.
  queue.h:63,75, simple_switch.cpp:172 -/
  | pushing (k : Nat) (x : T) (blk : Bool)
  /-- waiting.  queue.h:65,77, simple_switch.cpp:174 -/
  | sleepW (k : Nat) (x : T)
  /-- has pushed, about to call `notify_one`.  queue.h:69,81, simple_switch.cpp:178 -/
  | notifyE
  /-- in `pop_back`, about to evaluate the condition.  queue.h:87, simple_switch.cpp:147 -/
  | popping
  /-- waiting.  queue.h:88, simple_switch.cpp:147 -/
  | sleepR
  /-- has taken an element from a queue, about to call `notify_one`.  queue.h:92, simple_switch.cpp:154,159 -/
  | notifyF (k : Nat)
  deriving DecidableEq, Repr

/-- The object and the threads.  The elements of a queue are listed from the back of the `std::deque`, where
`pop_back` takes them, to its front.  `full size capacity` is the condition of the loop of `push_front`. -/
structure St (T : Type) where
  nq : Nat
  full : Nat → Nat → Bool
  cap : Nat → Nat
  queue : Nat → List T
  threads : List (TS T)

/-- What can be seen. -/
inductive Ev (T : Type) where
  /-- `x` was put in queue `k` -/
  | pushed (k : Nat) (x : T)
  /-- `push_front` returned, the queue being full -/
  | refused (k : Nat) (x : T)
  /-- `pop_back` took `x` from queue `k` -/
  | popped (k : Nat) (x : T)
  deriving DecidableEq, Repr

/-- What may happen next. -/
inductive Label (T : Type) where
  /-- thread `i` calls `push_front` -/
  | callPush (i k : Nat) (x : T) (blk : Bool)
  /-- thread `i` calls `pop_back` -/
  | callPop (i : Nat)
  /-- thread `i` takes the mutex -/
  | test (i : Nat)
  /-- thread `i` calls `notify_one`, which wakes thread `j`, or nobody -/
  | notify (i : Nat) (j : Option Nat)
  /-- thread `i` wakes up for no reason -/
  | spurious (i : Nat)
  /-- `set_capacity`.  queue.h:102-106 -/
  | setCap (k c : Nat)
  deriving DecidableEq, Repr

/-- The thread waits for a slot of queue `k`. -/
def TS.isSleepW {T : Type} (k : Nat) : TS T → Bool
  | .sleepW k' _ => k' = k
  | _ => false

/-- The thread waits for an element. -/
def TS.isSleepR {T : Type} : TS T → Bool
  | .sleepR => true
  | _ => false

variable {T : Type}

/-- The thread is somewhere else. -/
def St.move (s : St T) (i : Nat) (t : TS T) : St T := { s with threads := s.threads.set i t }

/-- The first queue that is not empty.  simple_switch.cpp:150-156 -/
def St.first (s : St T) : Option Nat := (List.range s.nq).find? fun k => !(s.queue k).isEmpty

/-- `push_front` from the condition of the loop to `wait` or `unlock`.
`/repo/include/bm/bm_sim/queue.h:62-68,74-80`, `/repo/targets/simple_switch/simple_switch.cpp:171-177`. -/
def St.push (s : St T) (i k : Nat) (x : T) (blk : Bool) : St T × List (Ev T) :=
  if s.full (s.queue k).length (s.cap k) then
    if blk then (s.move i (.sleepW k x), []) else (s.move i .idle, [.refused k x])
  else
    ({ s with queue := Function.update s.queue k (s.queue k ++ [x]) }.move i .notifyE, [.pushed k x])

/-- `pop_back` from the condition to `wait` or `unlock`.
`/repo/include/bm/bm_sim/queue.h:86-91`, `/repo/targets/simple_switch/simple_switch.cpp:146-158`. -/
def St.pop (s : St T) (i : Nat) : St T × List (Ev T) :=
  match s.first with
  | none => (s.move i .sleepR, [])
  | some k =>
    match s.queue k with
    | [] => (s.move i .sleepR, [])
    | x :: q => ({ s with queue := Function.update s.queue k q }.move i (.notifyF k), [.popped k x])

/-- `notify_one` of thread `i` on a condition variable, `asleep` being the threads that wait on it. -/
def St.notify (s : St T) (i : Nat) (asleep : TS T → Bool) (wake : TS T → TS T) : Option Nat → Option (St T)
  | none => if s.threads.any asleep then none else some (s.move i .idle)
  | some j =>
    match s.threads[j]? with
    | none => none
    | some t => if asleep t then some ((s.move j (wake t)).move i .idle) else none

/-- A thread that has woken up. -/
def TS.wake : TS T → TS T
  | .sleepW k x => .pushing k x true
  | .sleepR => .popping
  | t => t

/-- One step; `none` if that cannot happen in this state. -/
def St.step (s : St T) : Label T → Option (St T × List (Ev T))
  | .callPush i k x blk =>
    match s.threads[i]? with
    | some .idle => if k < s.nq then some (s.move i (.pushing k x blk), []) else none
    | _ => none
  | .callPop i =>
    match s.threads[i]? with
    | some .idle => some (s.move i .popping, [])
    | _ => none
  | .test i =>
    match s.threads[i]? with
    | some (.pushing k x blk) => some (s.push i k x blk)
    | some .popping => some (s.pop i)
    | _ => none
  | .notify i j =>
    match s.threads[i]? with
    | some .notifyE => (s.notify i TS.isSleepR TS.wake j).map fun s => (s, [])
    | some (.notifyF k) => (s.notify i (TS.isSleepW k) TS.wake j).map fun s => (s, [])
    | _ => none
  | .spurious i =>
    match s.threads[i]? with
    | some (.sleepW k x) => some (s.move i (.pushing k x true), [])
    | some .sleepR => some (s.move i .popping, [])
    | _ => none
  | .setCap k c => some ({ s with cap := Function.update s.cap k c }, [])

/-- A sequence of steps, with what was seen. -/
def St.run (s : St T) : List (Label T) → Option (St T × List (Ev T))
  | [] => some (s, [])
  | l :: ls =>
    match s.step l with
    | none => none
    | some (s1, es) => (s1.run ls).map fun r => (r.1, es ++ r.2)

/-- A new object and `n` threads. -/
def St.new (nq : Nat) (full : Nat → Nat → Bool) (cap : Nat → Nat) (n : Nat) : St T :=
  { nq, full, cap, queue := fun _ => [], threads := List.replicate n .idle }

/-- A `Queue`: `while (!is_not_full())`.  `/repo/include/bm/bm_sim/queue.h:63,75,120`. -/
def newQueue (capacity n : Nat) : St T :=
  .new 1 (fun size cap => !decide (size < cap)) (fun _ => capacity) n

/-- An `InputBuffer`: queue 0 is `queue_hi`, queue 1 is `queue_lo`; `while (queue->size() == capacity)`.
`/repo/targets/simple_switch/simple_switch.cpp:125-126,172`. -/
def newInputBuffer (hi lo n : Nat) : St T :=
  .new 2 (fun size cap => decide (size = cap)) (fun k => if k = 0 then hi else lo) n

end Bm.Monitor
