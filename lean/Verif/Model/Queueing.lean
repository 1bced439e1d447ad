import Verif.Model.UMap
import Mathlib.Logic.Function.Basic

/-!
# Model of `QueueingLogicPriRL`, the egress queues of simple_switch

Transcribes `/repo/include/bm/bm_sim/queueing.h:480-821`.  Every public function holds the mutex, so a
concurrent execution is a sequence of the operations below; `pop_back` releases it only while waiting,
and a wait changes nothing, so a call of `pop_back` appears as any number of blocked attempts followed
by a successful one, each with its own reading of the clock.

Clock readings are arbitrary integers (nanoseconds), not assumed to grow.  The overflow of
`time_point` addition and of the size counters is left out; the counter that orders packets with
equal times wraps as in the code.  `std::vector` and `std::array` of a fixed length are functions
of the index with the bound checked at each access as the code does.
-/

namespace Bm.Queueing

variable {T : Type}

/-- `QE`.  `/repo/include/bm/bm_sim/queueing.h:701-709`. -/
structure QE (T : Type) where
  e : T
  qid : Nat
  send : Int
  id : Nat

/-- `b` is served after `a`: `QEComp(b, a)`.  `/repo/include/bm/bm_sim/queueing.h:711-715`. -/
def QE.before (a b : QE T) : Bool := if b.send = a.send then b.id > a.id else b.send > a.send

/-- `std::priority_queue::emplace`; the queue is represented by its elements in the order in which
they would be popped.  `/repo/include/bm/bm_sim/queueing.h:513-514,536-540,717`. -/
def emplace (x : QE T) : List (QE T) → List (QE T)
  | [] => [x]
  | y :: l => if x.before y then x :: y :: l else y :: emplace x l

/-- `QueueInfoPri`.  `/repo/include/bm/bm_sim/queueing.h:719-731`.  `queue_rate_pps` is never read. -/
structure PriInfo where
  size : Nat := 0
  capacity : Nat
  delay : Nat
  lastSent : Int

/-- `QueueInfo`.  `/repo/include/bm/bm_sim/queueing.h:733-739`. -/
structure QInfo where
  pri : Nat → PriInfo
  size : Nat := 0

/-- `WorkerInfo`.  `/repo/include/bm/bm_sim/queueing.h:741-746`. -/
structure WInfo (T : Type) where
  size : Nat := 0
  queues : Nat → List (QE T) := fun _ => []
  counter : Nat := 0

/-- What is fixed at construction: number of workers and priorities, the functor mapping queues to
workers, and `rate_to_ticks` (a computation with `double`; no assumption is made about it).
`/repo/include/bm/bm_sim/queueing.h:492-498,694-699`. -/
structure Fixed where
  nbWorkers : Nat
  nbPri : Nat
  worker : Nat → Nat
  ticks : Nat → Nat

/-- The data members.  `/repo/include/bm/bm_sim/queueing.h:812-820`. -/
structure State (T : Type) where
  capacity : Nat
  rate : Nat := 0
  queues : UMap QInfo := {}
  workers : Nat → WInfo T := fun _ => {}

/-- `get_queue`: creates the queue when it does not exist (`t` is the clock reading of the constructor
of `QueueInfoPri`).  `/repo/include/bm/bm_sim/queueing.h:748-754`. -/
def getQueue (F : Fixed) (s : State T) (q : Nat) (t : Int) : QInfo × State T :=
  match s.queues.find? q with
  | some i => (i, s)
  | none =>
    let i : QInfo := { pri := fun _ => { capacity := s.capacity, delay := F.ticks s.rate, lastSent := t } }
    (i, { s with queues := s.queues.insert q i })

/-- Results of the calls.  `throws`: `std::out_of_range`. -/
inductive Res (T : Type)
  | throws
  | refused
  | accepted
  | blocked
  | item (q p : Nat) (x : T)
  | size (n : Nat)
  | done
deriving DecidableEq

/-- `size--` on a `size_t`. -/
def dec (n : Nat) : Nat := if n = 0 then 2 ^ 64 - 1 else n - 1

/-- `push_front(queue_id, priority, item)`; `t0`, `t1` are the clock readings in `get_queue` and
`get_next_tp`.  `none`: index out of the array of 32 queues.
`/repo/include/bm/bm_sim/queueing.h:505-546,764-767`. -/
def push (F : Fixed) (s : State T) (q p : Nat) (x : T) (t0 t1 : Int) : Option (Res T × State T) :=
  let (i, s) := getQueue F s q t0
  let w := F.worker q
  if F.nbWorkers ≤ w then some (.throws, s)
  else if F.nbPri ≤ p then some (.throws, s)
  else
    let c := i.pri p
    if c.size ≥ c.capacity then some (.refused, s)
    else if 32 ≤ p then none
    else
      let sent := max t1 (c.lastSent + c.delay)
      let wi := s.workers w
      let c' := { c with lastSent := sent, size := c.size + 1 }
      let i' := { i with pri := Function.update i.pri p c', size := i.size + 1 }
      let wq := emplace ⟨x, q, sent, wi.counter⟩ (wi.queues p)
      let wi' := { size := wi.size + 1, queues := Function.update wi.queues p wq,
                   counter := (wi.counter + 1) % 2 ^ 64 }
      some (.accepted, { s with queues := s.queues.modify q fun _ => i'
                                workers := Function.update s.workers w wi' })

/-- The loop over priorities in `pop_back`: the queue chosen and its first element.  Outer `none`:
index out of the array.  `/repo/include/bm/bm_sim/queueing.h:574-582`. -/
def pick (wi : WInfo T) (now : Int) : Nat → Option (Option (Nat × QE T × List (QE T)))
  | 0 => some none
  | p + 1 =>
    if 32 ≤ p then none
    else match wi.queues p with
      | [] => pick wi now p
      | e :: l => if e.send ≤ now then some (some (p, e, l)) else pick wi now p

/-- One iteration of the loop of `pop_back` with clock reading `now`, and the removal of the element
found.  `/repo/include/bm/bm_sim/queueing.h:561-598`. -/
def pop (F : Fixed) (s : State T) (w : Nat) (now : Int) : Option (Res T × State T) :=
  if F.nbWorkers ≤ w then some (.throws, s)
  else
    let wi := s.workers w
    if wi.size = 0 then some (.blocked, s)
    else match pick wi now F.nbPri with
      | none => none
      | some none => some (.blocked, s)
      | some (some (p, e, l)) =>
        let wi1 := { wi with queues := Function.update wi.queues p l }
        match s.queues.find? e.qid with
        | none => some (.throws, { s with workers := Function.update s.workers w wi1 })
        | some i =>
          let c := i.pri p
          let i' := { i with pri := Function.update i.pri p { c with size := dec c.size }
                             size := dec i.size }
          some (.item e.qid p e.e,
            { s with queues := s.queues.modify e.qid fun _ => i'
                     workers := Function.update s.workers w { wi1 with size := dec wi.size } })

/-- `size(queue_id)`.  `/repo/include/bm/bm_sim/queueing.h:611-617`. -/
def size (s : State T) (q : Nat) : Res T :=
  match s.queues.find? q with
  | none => .size 0
  | some i => .size i.size

/-- `size(queue_id, priority)`.  `/repo/include/bm/bm_sim/queueing.h:621-628`. -/
def sizePri (F : Fixed) (s : State T) (q p : Nat) : Res T :=
  match s.queues.find? q with
  | none => .size 0
  | some i => if F.nbPri ≤ p then .throws else .size (i.pri p).size

/-- `for_each_q`.  `/repo/include/bm/bm_sim/queueing.h:769-774`. -/
def forEachQ (F : Fixed) (s : State T) (q : Nat) (t : Int) (f : PriInfo → PriInfo) : State T :=
  let (i, s) := getQueue F s q t
  { s with queues := s.queues.modify q fun _ => { i with pri := fun p => f (i.pri p) } }

/-- `for_one_q`.  `/repo/include/bm/bm_sim/queueing.h:776-782`. -/
def forOneQ (F : Fixed) (s : State T) (q p : Nat) (t : Int) (f : PriInfo → PriInfo) :
    Res T × State T :=
  let (i, s) := getQueue F s q t
  if F.nbPri ≤ p then (.throws, s)
  else (.done, { s with
    queues := s.queues.modify q fun _ => { i with pri := Function.update i.pri p (f (i.pri p)) } })

/-- `SetCapacityFn`.  `/repo/include/bm/bm_sim/queueing.h:784-793`. -/
def setCapacityFn (c : Nat) (i : PriInfo) : PriInfo := { i with capacity := c }

/-- `SetRateFn`.  `/repo/include/bm/bm_sim/queueing.h:795-810`. -/
def setRateFn (F : Fixed) (pps : Nat) (i : PriInfo) : PriInfo := { i with delay := F.ticks pps }

/-- `for (auto &p : queues_info) for_each_q(p.first, fn)`.
`/repo/include/bm/bm_sim/queueing.h:648,672`. -/
def forAll (s : State T) (f : PriInfo → PriInfo) : State T :=
  { s with queues := s.queues.mapAll fun i => { i with pri := fun p => f (i.pri p) } }

/-- The calls, with their clock readings. -/
inductive Op (T : Type)
  | push (q p : Nat) (x : T) (t0 t1 : Int)
  | pop (w : Nat) (t : Int)
  | size (q : Nat)
  | sizePri (q p : Nat)
  | setCap (q c : Nat) (t : Int)
  | setCapPri (q p c : Nat) (t : Int)
  | setCapAll (c : Nat)
  | setRate (q pps : Nat) (t : Int)
  | setRatePri (q p pps : Nat) (t : Int)
  | setRateAll (pps : Nat)

/-- One call.  The setters are `/repo/include/bm/bm_sim/queueing.h:632-674`. -/
def exec (F : Fixed) (s : State T) : Op T → Option (Res T × State T)
  | .push q p x t0 t1 => push F s q p x t0 t1
  | .pop w t => pop F s w t
  | .size q => some (size s q, s)
  | .sizePri q p => some (sizePri F s q p, s)
  | .setCap q c t => some (.done, forEachQ F s q t (setCapacityFn c))
  | .setCapPri q p c t => some (forOneQ F s q p t (setCapacityFn c))
  | .setCapAll c => some (.done, { forAll s (setCapacityFn c) with capacity := c })
  | .setRate q pps t => some (.done, forEachQ F s q t (setRateFn F pps))
  | .setRatePri q p pps t => some (forOneQ F s q p t (setRateFn F pps))
  | .setRateAll pps => some (.done, { forAll s (setRateFn F pps) with rate := pps })

/-- A history of calls: the calls with their results. -/
def run (F : Fixed) (s : State T) : List (Op T) → Option (List (Op T × Res T) × State T)
  | [] => some ([], s)
  | op :: ops => do
    let (r, s1) ← exec F s op
    let (t, s2) ← run F s1 ops
    return ((op, r) :: t, s2)

end Bm.Queueing
