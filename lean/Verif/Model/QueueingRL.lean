import Verif.Model.Queueing

/-!
# Model of `QueueingLogicRL`, the egress queues of psa_switch

Transcribes `/repo/include/bm/bm_sim/queueing.h:243-462`, with the conventions of `Model/Queueing` (the elements and
the order of the priority queue are the same text in both classes).
-/

namespace Bm.QueueingRL
open Bm.Queueing (QE emplace dec Res)

variable {T : Type}

/-- `QueueInfo`.  `/repo/include/bm/bm_sim/queueing.h:416-428`. -/
structure Info where
  size : Nat := 0
  capacity : Nat
  delay : Nat
  lastSent : Int

/-- `WorkerInfo`.  `/repo/include/bm/bm_sim/queueing.h:430-434`. -/
structure WInfo (T : Type) where
  queue : List (QE T) := []
  counter : Nat := 0

/-- What is fixed at construction.  `/repo/include/bm/bm_sim/queueing.h:253-257,383-388`. -/
structure Fixed where
  nbWorkers : Nat
  worker : Nat → Nat
  ticks : Nat → Nat

/-- The data members.  `/repo/include/bm/bm_sim/queueing.h:455-461`. -/
structure State (T : Type) where
  capacity : Nat
  rate : Nat := 0
  queues : UMap Info := {}
  workers : Nat → WInfo T := fun _ => {}

/-- `get_queue`; `t` is the clock reading of the constructor of `QueueInfo`.
`/repo/include/bm/bm_sim/queueing.h:436-441`. -/
def getQueue (F : Fixed) (s : State T) (q : Nat) (t : Int) : Info × State T :=
  match s.queues.find? q with
  | some i => (i, s)
  | none =>
    let i : Info := { capacity := s.capacity, delay := F.ticks s.rate, lastSent := t }
    (i, { s with queues := s.queues.insert q i })

/-- `push_front`; `t0`, `t1` are the clock readings in `get_queue` and `get_next_tp`.
`/repo/include/bm/bm_sim/queueing.h:262-290,451-453`. -/
def push (F : Fixed) (s : State T) (q : Nat) (x : T) (t0 t1 : Int) : Res T × State T :=
  let (i, s) := getQueue F s q t0
  let w := F.worker q
  if F.nbWorkers ≤ w then (.throws, s)
  else if i.size ≥ i.capacity then (.refused, s)
  else
    let sent := max t1 (i.lastSent + i.delay)
    let wi := s.workers w
    let i' := { i with lastSent := sent, size := i.size + 1 }
    let wi' := { queue := emplace ⟨x, q, sent, wi.counter⟩ wi.queue, counter := (wi.counter + 1) % 2 ^ 64 }
    (.accepted, { s with queues := s.queues.modify q fun _ => i'
                         workers := Function.update s.workers w wi' })

/-- One iteration of the loop of `pop_back` with clock reading `now`, and the removal of the element found.
`/repo/include/bm/bm_sim/queueing.h:297-316`. -/
def pop (F : Fixed) (s : State T) (w : Nat) (now : Int) : Res T × State T :=
  if F.nbWorkers ≤ w then (.throws, s)
  else
    let wi := s.workers w
    match wi.queue with
    | [] => (.blocked, s)
    | e :: l =>
      if e.send ≤ now then
        let ws := Function.update s.workers w { wi with queue := l }
        match s.queues.find? e.qid with
        | none => (.throws, { s with workers := ws })
        | some i => (.item e.qid 0 e.e,
            { s with queues := s.queues.modify e.qid fun _ => { i with size := dec i.size }, workers := ws })
      else (.blocked, s)

/-- What a blocked `pop_back` waits for: `none`, an element; `some t`, an element or time `t`.
`/repo/include/bm/bm_sim/queueing.h:301-308`. -/
def alarm (s : State T) (w : Nat) : Option Int := (s.workers w).queue.head?.map (·.send)

/-- `size`.  `/repo/include/bm/bm_sim/queueing.h:319-325`. -/
def size (s : State T) (q : Nat) : Res T :=
  match s.queues.find? q with
  | none => .size 0
  | some i => .size i.size

/-- The calls, with their clock readings. -/
inductive Op (T : Type)
  | push (q : Nat) (x : T) (t0 t1 : Int)
  | pop (w : Nat) (t : Int)
  | size (q : Nat)
  | setCap (q c : Nat) (t : Int)
  | setCapAll (c : Nat)
  | setRate (q pps : Nat) (t : Int)
  | setRateAll (pps : Nat)

/-- A setter for one queue.  `/repo/include/bm/bm_sim/queueing.h:329-333,347-352`. -/
def forQ (F : Fixed) (s : State T) (q : Nat) (t : Int) (f : Info → Info) : State T :=
  let (i, s) := getQueue F s q t
  { s with queues := s.queues.modify q fun _ => f i }

/-- One call.  The setters are `/repo/include/bm/bm_sim/queueing.h:329-365`. -/
def exec (F : Fixed) (s : State T) : Op T → Res T × State T
  | .push q x t0 t1 => push F s q x t0 t1
  | .pop w t => pop F s w t
  | .size q => (size s q, s)
  | .setCap q c t => (.done, forQ F s q t fun i => { i with capacity := c })
  | .setCapAll c => (.done, { s with queues := s.queues.mapAll fun i => { i with capacity := c }, capacity := c })
  | .setRate q pps t => (.done, forQ F s q t fun i => { i with delay := F.ticks pps })
  | .setRateAll pps =>
    (.done, { s with queues := s.queues.mapAll fun i => { i with delay := F.ticks pps }, rate := pps })

/-- A history of calls: the calls with their results. -/
def run (F : Fixed) (s : State T) : List (Op T) → List (Op T × Res T) × State T
  | [] => ([], s)
  | op :: ops =>
    let (r, s1) := exec F s op
    let (t, s2) := run F s1 ops
    ((op, r) :: t, s2)

/-- A new object.  `/repo/include/bm/bm_sim/queueing.h:253-257`. -/
def init (capacity : Nat) : State T := { capacity := capacity }

end Bm.QueueingRL
