/-!
# `QueueingLogic`

`/repo/include/bm/bm_sim/queueing.h:75-229`: queues shared by threads, with blocking reads and writes.

Simplifications:
- Every function holds the mutex from beginning to end except while it waits; a step is what a thread does between two points where it
  does not have the mutex.
- Waiting threads are a list; `notify_one` wakes the one the caller of `step` chooses among those which wait for the condition (the
  first if the choice is none of them).  A wait may end without reason (`spurious`).
- The two forms of `push_front` (copy or move) are one.
- `map_to_worker` is a function; sizes do not reach 2^64.
-/

namespace Bm.QueueLogic

variable {T : Type}

/-- What a thread asks for: `push_front(queue_id, item)` or `pop_back(worker_id, …)`.
`/repo/include/bm/bm_sim/queueing.h:93-143`. -/
inductive Call (T : Type)
  | push (q : Nat) (item : T)
  | pop (w : Nat)
  deriving DecidableEq, Repr

/-- A thread inside `wait`; `woken`: notified, but it does not have the mutex yet. -/
structure Waiter (T : Type) where
  what : Call T
  woken : Bool
  deriving DecidableEq, Repr

/-- `QueueInfo`.  `/repo/include/bm/bm_sim/queueing.h:189-196`. -/
structure QInfo where
  size : Nat
  cap : Nat
  deriving DecidableEq, Repr

/-- The object and the threads which wait.  `/repo/include/bm/bm_sim/queueing.h:179-201,223-228`. -/
structure St (T : Type) where
  cap : Nat
  queues : List (Nat × QInfo)
  workers : List (List (T × Nat))
  waiting : List (Waiter T)
  deriving DecidableEq, Repr

/-- The constructor.  `/repo/include/bm/bm_sim/queueing.h:87-91`. -/
def St.make (nbWorkers cap : Nat) : St T := ⟨cap, [], List.replicate nbWorkers [], []⟩

/-- `get_queue`: the queue, made with the default capacity if it is new.  `/repo/include/bm/bm_sim/queueing.h:203-213`. -/
def St.getQueue (s : St T) (q : Nat) : QInfo := (s.queues.lookup q).getD ⟨0, s.cap⟩

/-- Writing a queue back (a new pair in front of the older one, which is not seen any more). -/
def St.setQueue (s : St T) (q : Nat) (i : QInfo) : St T := { s with queues := (q, i) :: s.queues }

/-- Waits for room in `q`. -/
def Waiter.forRoom (q : Nat) (x : Waiter T) : Bool :=
  match x.what with
  | .push q' _ => decide (q' = q)
  | .pop _ => false

/-- Waits for an element for worker `w`. -/
def Waiter.forItem (w : Nat) (x : Waiter T) : Bool :=
  match x.what with
  | .push _ _ => false
  | .pop w' => decide (w' = w)

/-- Waking the first waiter which meets `p`. -/
def wakeFirst (p : Waiter T → Bool) : List (Waiter T) → List (Waiter T)
  | [] => []
  | x :: xs => if p x && !x.woken then { x with woken := true } :: xs else x :: wakeFirst p xs

/-- `notify_one`: waiter `i` if it waits for this condition, otherwise the first which does. -/
def notifyOne (p : Waiter T → Bool) (i : Nat) (xs : List (Waiter T)) : List (Waiter T) :=
  match xs[i]? with
  | some x => if p x && !x.woken then xs.set i { x with woken := true } else wakeFirst p xs
  | none => wakeFirst p xs

/-- What comes of a step: the call is done; it waits; it throws `std::out_of_range`; nothing happened. -/
inductive Out (T : Type)
  | pushed (q : Nat) (item : T)
  | popped (w q : Nat) (item : T)
  | waits
  | throws
  | quiet
  deriving DecidableEq, Repr

/-- `push_front` from where it gets the mutex.  `/repo/include/bm/bm_sim/queueing.h:95-107,109-121`. -/
def St.push (map : Nat → Nat) (s : St T) (q : Nat) (item : T) (i : Nat) : St T × Out T :=
  let info := s.getQueue q
  let s := s.setQueue q info
  match s.workers[map q]? with
  | none => (s, .throws)
  | some items =>
    if info.size ≥ info.cap then ({ s with waiting := s.waiting ++ [⟨.push q item, false⟩] }, .waits)
    else
      ({ s.setQueue q { info with size := info.size + 1 } with
          workers := s.workers.set (map q) ((item, q) :: items)
          waiting := notifyOne (Waiter.forItem (map q)) i s.waiting }, .pushed q item)

/-- `pop_back` from where it gets the mutex.  `/repo/include/bm/bm_sim/queueing.h:129-143`. -/
def St.pop (s : St T) (w : Nat) (i : Nat) : St T × Out T :=
  match s.workers[w]? with
  | none => (s, .throws)
  | some items =>
    match items.getLast? with
    | none => ({ s with waiting := s.waiting ++ [⟨.pop w, false⟩] }, .waits)
    | some (item, q) =>
      match s.queues.lookup q with
      | none => ({ s with workers := s.workers.set w items.dropLast }, .throws)
      | some info =>
        ({ s.setQueue q { info with size := info.size - 1 } with
            workers := s.workers.set w items.dropLast
            waiting := notifyOne (Waiter.forRoom q) i s.waiting }, .popped w q item)

/-- A call. -/
def St.run (map : Nat → Nat) (s : St T) (c : Call T) (i : Nat) : St T × Out T :=
  match c with
  | .push q item => s.push map q item i
  | .pop w => s.pop w i

/-- `size`.  `/repo/include/bm/bm_sim/queueing.h:145-151`. -/
def St.size (s : St T) (q : Nat) : Nat :=
  match s.queues.lookup q with
  | none => 0
  | some info => info.size

/-- `set_capacity`.  `/repo/include/bm/bm_sim/queueing.h:155-159`. -/
def St.setCapacity (s : St T) (q c : Nat) : St T := s.setQueue q { s.getQueue q with cap := c }

/-- `set_capacity_for_all`.  `/repo/include/bm/bm_sim/queueing.h:162-166`. -/
def St.setCapacityForAll (s : St T) (c : Nat) : St T :=
  { s with queues := s.queues.map (fun p => (p.1, { p.2 with cap := c })), cap := c }

/-- Events: a thread calls; a waiter which was woken gets the mutex and tests its condition again; a wait ends without reason; the
capacities are set.  `i` chooses whom `notify_one` wakes. -/
inductive Ev (T : Type)
  | call (c : Call T) (i : Nat)
  | resume (k : Nat) (i : Nat)
  | spurious (k : Nat)
  | setCapacity (q c : Nat)
  | setCapacityForAll (c : Nat)
  deriving DecidableEq, Repr

/-- One event. -/
def St.step (map : Nat → Nat) (s : St T) : Ev T → St T × Out T
  | .call c i => s.run map c i
  | .resume k i =>
    match s.waiting[k]? with
    | some x => if x.woken then { s with waiting := s.waiting.eraseIdx k }.run map x.what i else (s, .quiet)
    | none => (s, .quiet)
  | .spurious k =>
    match s.waiting[k]? with
    | some x => ({ s with waiting := s.waiting.set k { x with woken := true } }, .quiet)
    | none => (s, .quiet)
  | .setCapacity q c => (s.setCapacity q c, .quiet)
  | .setCapacityForAll c => (s.setCapacityForAll c, .quiet)

/-- A run: the final state and what came of the events. -/
def St.steps (map : Nat → Nat) (s : St T) : List (Ev T) → St T × List (Out T)
  | [] => (s, [])
  | e :: es =>
    let (s, o) := s.step map e
    let (s, os) := s.steps map es
    (s, o :: os)

end Bm.QueueLogic
