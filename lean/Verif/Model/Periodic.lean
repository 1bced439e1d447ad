import Verif.Model.Phv

/-!
# Model of periodic tasks

`PeriodicTask` and `PeriodicTaskList`.

* A step is what a thread does while it holds the mutex, or without needing it; any number of threads create and
  destroy tasks.  The loop of the list is one thread.
* Time is a number (the resolution of the clock) and does not go back; it passes between steps, and while a task is
  executed.
* Tasks are numbered in the order of their construction or otherwise; a number is not used again.
* The priority queue is a set of tasks: the top is any task whose `next` is smallest (the event says which one; the
  `next` of a task does not change while it is in the queue).
* `wait_until` takes its time by reference and reads it again when it returns (it compares the time with the
  clock, in libstdc++), after the mutex was locked again.
-/

namespace Bm.Periodic

/-- What the thread of the list is doing.  `/repo/src/bm_sim/periodic_task.cpp:122-143`. -/
inductive Loop
  /-- there is no thread (before `start`, after `join`) -/
  | off
  /-- before the mutex is locked -/
  | idle
  /-- in `cv.wait` -/
  | waitAny
  /-- in `cv.wait_until`, with a reference to `next` of this task -/
  | waitFor (t : Nat)
  /-- it has left the loop, but was not joined yet -/
  | ended
  deriving Repr, DecidableEq

/-- What can be observed of the tasks. -/
inductive Obs
  /-- a task with this interval was constructed at this time -/
  | made (t iv at_ : Nat)
  /-- the function of a task was executed, from one time to another -/
  | exec (t begin_ end_ : Nat)
  deriving Repr, DecidableEq

/-- The list and its tasks: time, `task_queue`, the tasks constructed and freed, `interval` and `next` of the tasks,
the thread, `running`, and what happened, the last first.
`/repo/include/bm/bm_sim/periodic_task.h:64-76,111-117`. -/
structure St where
  now : Nat
  queue : List Nat
  made : List Nat
  freed : List Nat
  interval : Nat → Nat
  next : Nat → Nat
  loop : Loop
  running : Bool
  log : List Obs

/-- Nothing yet; the list is a static object, so that `running` is false although no constructor sets it.
`/repo/src/bm_sim/periodic_task.cpp:145-149`. -/
def St.init : St := ⟨0, [], [], [], fun _ => 0, fun _ => 0, .off, false, []⟩

/-- What can happen. -/
inductive Ev
  /-- time passes -/
  | tick (d : Nat)
  /-- the constructor of task `t`, until `register_task` -/
  | construct (t iv : Nat)
  /-- `register_task` -/
  | register (t : Nat)
  /-- `unregister_task`, called by the destructor -/
  | unregister (t : Nat)
  /-- the destructor is done and the memory of the task is freed -/
  | free (t : Nat)
  /-- `start` -/
  | start
  /-- `join`, the part under the mutex -/
  | join
  /-- `join`, the thread is joined -/
  | joined
  /-- the loop locks the mutex and begins to wait; `top` is the top of the queue, if there is one -/
  | enter (top : Nat)
  /-- the loop is woken (by a notification, the time or for no reason) and has the mutex again; `top` is the top of
  the queue, if there is one, and `d` the time its execution takes -/
  | wake (top d : Nat)
  deriving Repr, DecidableEq

/-- Result of an event. -/
inductive Res
  | ok (s : St)
  /-- it cannot happen now -/
  | no
  /-- undefined behaviour (memory that was freed is read) or `std::terminate` -/
  | ub

/-- The object of task `t` exists. -/
def St.alive (s : St) (t : Nat) : Bool := decide (t ∈ s.made) && decide (t ∉ s.freed)

/-- `top()` of the queue may be `t`.  `/repo/include/bm/bm_sim/periodic_task.h:95-104`. -/
def St.isTop (s : St) (t : Nat) : Bool :=
  decide (t ∈ s.queue) && s.queue.all fun u => decide (s.next t ≤ s.next u)

/-- `f` with another value at `t`. -/
def upd (f : Nat → Nat) (t v : Nat) : Nat → Nat := fun u => if u = t then v else f u

/-- `PeriodicTask::execute`: the function, then `reset_next`; the task goes back into the queue.
`/repo/src/bm_sim/periodic_task.cpp:32-41,136-139`. -/
def St.execute (s : St) (t d : Nat) : St :=
  { s with
    now := s.now + d
    next := upd s.next t (s.now + d + s.interval t)
    log := .exec t s.now (s.now + d) :: s.log }

/-- The loop locks the mutex: it leaves when it is not running, waits for any notification when there are no
tasks, for the time of the top task otherwise.  `/repo/src/bm_sim/periodic_task.cpp:125-134`. -/
def St.enter (s : St) (top : Nat) : Res :=
  if s.running = false then .ok { s with loop := .ended }
  else if s.queue = [] then .ok { s with loop := .waitAny }
  else if s.isTop top = true then
    if s.alive top = true then .ok { s with loop := .waitFor top } else .ub
  else .no

/-- The loop returns from `wait_until` with a reference to `next` of task `t`: when the time has come the top of the
queue, if there is one, is executed.  `/repo/src/bm_sim/periodic_task.cpp:133-141`. -/
def St.wakeFor (s : St) (t top d : Nat) : Res :=
  if s.alive t = false then .ub
  else if s.now < s.next t then .ok { s with loop := .idle }
  else if s.queue = [] then .ok { s with loop := .idle }
  else if s.isTop top = true then
    if s.alive top = true then .ok { s.execute top d with loop := .idle } else .ub
  else .no

/-- One event. -/
def St.step (s : St) : Ev → Res
  | .tick d => .ok { s with now := s.now + d }
  -- `/repo/src/bm_sim/periodic_task.cpp:14-18`
  | .construct t iv =>
    if t ∈ s.made then .no
    else .ok { s with
      made := t :: s.made
      interval := upd s.interval t iv
      next := upd s.next t (s.now + iv)
      log := .made t iv s.now :: s.log }
  -- `/repo/src/bm_sim/periodic_task.cpp:43-69`
  | .register t =>
    if s.alive t = false then .no
    else if t ∈ s.queue then .ok s
    else .ok { s with queue := t :: s.queue }
  -- `/repo/src/bm_sim/periodic_task.cpp:22-30,71-95`
  | .unregister t =>
    if s.alive t = false then .no else .ok { s with queue := s.queue.filter (· ≠ t) }
  -- `/repo/src/bm_sim/periodic_task.cpp:22-25`: the task was unregistered
  | .free t =>
    if s.alive t = false ∨ t ∈ s.queue then .no else .ok { s with freed := t :: s.freed }
  -- `/repo/src/bm_sim/periodic_task.cpp:97-106`: a `std::thread` is assigned, which terminates the program when there
  -- is one that was not joined
  | .start =>
    if s.running = true then .ok s
    else if s.loop = .off then .ok { s with running := true, loop := .idle }
    else .ub
  -- `/repo/src/bm_sim/periodic_task.cpp:110-118`
  | .join => .ok { s with running := false }
  -- `/repo/src/bm_sim/periodic_task.cpp:119`
  | .joined => if s.loop = .ended then .ok { s with loop := .off } else .no
  | .enter top => if s.loop = .idle then s.enter top else .no
  | .wake top d =>
    match s.loop with
    -- `/repo/src/bm_sim/periodic_task.cpp:130-131`
    | .waitAny => .ok { s with loop := .idle }
    | .waitFor t => s.wakeFor t top d
    | _ => .no

/-- Events one after the other. -/
def St.run (s : St) : List Ev → Res
  | [] => .ok s
  | e :: es =>
    match s.step e with
    | .ok s' => s'.run es
    | .no => .no
    | .ub => .ub

end Bm.Periodic
