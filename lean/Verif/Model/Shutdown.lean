import Verif.Model.Field

/-!
# Model of how simple_switch and psa_switch are shut down

`/repo/targets/simple_switch/simple_switch.cpp:108-189,266-299,378-424,472-625,638-765` and
`/repo/targets/psa_switch/psa_switch.cpp:112-124,200-234,296-340,362-616`: the buffers between the threads, when threads wait
and end, and the destructor.  Each access to a buffer is one step (all of them take the mutex of the buffer); what a thread does
with a packet in between is arbitrary.  Packets are numbers.

Simplified: from which of its queues an egress thread takes the next element is arbitrary (C103, C104 say more); depths do not
change; the device manager's threads only put packets into the input buffer.
-/

namespace Bm.Shutdown

/-- Threads, capacities of the input buffer (packets to be processed again, others), of the output buffer, of the queues
`(port, priority)`.  `retry`: the destructor repeats pushing to a full queue (simple_switch); `single`: there is one input
buffer for all packets, and pushing to it waits (psa_switch).
`/repo/targets/simple_switch/simple_switch.cpp:199-205,286-293`, `/repo/targets/psa_switch/psa_switch.cpp:112-121,222-228`. -/
structure Cfg where
  n : Nat
  capHi : Nat
  capLo : Nat
  capOut : Nat
  depth : Nat × Nat → Nat
  retry : Bool
  single : Bool

/-- simple_switch.  `/repo/targets/simple_switch/simple_switch.cpp:199-205`, simple_switch.h:140. -/
def simpleSwitch : Cfg := ⟨4, 1024, 1024, 128, fun _ => 64, true, false⟩

/-- psa_switch.  `/repo/targets/psa_switch/psa_switch.cpp:112-121`, psa_switch.h:210. -/
def psaSwitch : Cfg := ⟨4, 0, 1024, 128, fun _ => 64, false, true⟩

/-- The ingress thread: waits for a packet, has one, waits for room to resubmit it, has ended.
`/repo/targets/simple_switch/simple_switch.cpp:476-479`, `/repo/targets/psa_switch/psa_switch.cpp:367-370,479`. -/
inductive Ing where
  | idle
  | busy (p : Nat)
  | back (p : Nat)
  | done
deriving DecidableEq, Repr

/-- An egress thread: waits for a packet, has one, waits for room to send it out or to recirculate it, has ended.
`/repo/targets/simple_switch/simple_switch.cpp:641-647,757-762`. -/
inductive Egr where
  | idle
  | busy (p : Nat)
  | out (p : Nat)
  | back (p : Nat)
  | done
deriving DecidableEq, Repr

/-- The thread that destroys the switch.  `/repo/targets/simple_switch/simple_switch.cpp:285-299`. -/
inductive Main where
  | run
  | input
  | egress (i : Nat)
  | output
  | join
  | fin
deriving DecidableEq, Repr

/-- The buffers (the next element comes first; `none` is the null pointer) and the threads; packets that were transmitted. -/
structure St where
  hi : List (Option Nat) := []
  lo : List (Option Nat) := []
  ing : Ing := .idle
  eq : List ((Nat × Nat) × Option Nat) := []
  egr : Nat → Egr := fun _ => .idle
  out : List (Option Nat) := []
  tx : Bool := false
  main : Main := .run
  sent : List Nat := []

/-- Elements of queue `q`. -/
def St.count (s : St) (q : Nat × Nat) : Nat := (s.eq.filter fun x => x.1 = q).length

/-- `egress_buffers.push_front`: nothing happens if the queue is full.  `/repo/include/bm/bm_sim/queueing.h:589-606`. -/
def St.enqueue (c : Cfg) (s : St) (q : Nat × Nat) (x : Option Nat) : St :=
  if s.count q < c.depth q then { s with eq := s.eq ++ [(q, x)] } else s

/-- Set the state of an egress thread. -/
def St.setEgr (s : St) (w : Nat) (e : Egr) : St := { s with egr := fun v => if v = w then e else s.egr v }

/-- The first element of queue `q` is taken away. -/
def takeFirst (q : Nat × Nat) : List ((Nat × Nat) × Option Nat) → Option (Option Nat × List ((Nat × Nat) × Option Nat))
  | [] => none
  | x :: l => if x.1 = q then some (x.2, l) else (takeFirst q l).map fun (y, l') => (y, x :: l')

/-- What may happen next. -/
inductive Label where
  | arrive (p : Nat)
  | ingPop
  | ingDone (qs : List (Nat × Nat))
  | ingBack
  | ingPush
  | egrPop (w : Nat) (q : Nat × Nat)
  | egrClone (w : Nat) (q : Nat × Nat)
  | egrDrop (w : Nat)
  | egrOut (w : Nat)
  | egrSend (w : Nat)
  | egrBack (w : Nat)
  | egrPush (w : Nat)
  | txPop
  | destroy
  | mainIn
  | mainEgr
  | mainOut
  | mainJoin

/-- One step; `none` if that cannot happen in this state. -/
def St.step (c : Cfg) (s : St) : Label → Option St
  -- simple_switch.cpp:131-133,262, psa_switch.cpp:208
  | .arrive p => if s.lo.length < c.capLo then some { s with lo := s.lo ++ [some p] } else none
  -- simple_switch.cpp:146-162,478-479, psa_switch.cpp:369-370
  | .ingPop =>
    match s.ing, s.hi, s.lo with
    | .idle, some p :: l, _ => some { s with hi := l, ing := .busy p }
    | .idle, none :: l, _ => some { s with hi := l, ing := .done }
    | .idle, [], some p :: l => some { s with lo := l, ing := .busy p }
    | .idle, [], none :: l => some { s with lo := l, ing := .done }
    | _, _, _ => none
  -- dropped, sent on, copied: simple_switch.cpp:398-418,540-632
  | .ingDone qs =>
    match s.ing with
    | .busy p => some { qs.foldl (fun s q => s.enqueue c q (some p)) s with ing := .idle }
    | _ => none
  -- simple_switch.cpp:134-137,609-611, psa_switch.cpp:479
  | .ingBack =>
    match s.ing with
    | .busy p =>
      if c.single then some { s with ing := .back p }
      else if s.hi.length < c.capHi then some { s with hi := s.hi ++ [some p], ing := .idle }
      else some { s with ing := .idle }
    | _ => none
  -- queue.h:66-75
  | .ingPush =>
    match s.ing with
    | .back p => if s.lo.length < c.capLo then some { s with lo := s.lo ++ [some p], ing := .idle } else none
    | _ => none
  -- simple_switch.cpp:646-647
  | .egrPop w q =>
    if w < c.n ∧ q.1 % c.n = w ∧ s.egr w = .idle then
      match takeFirst q s.eq with
      | some (some p, l) => some ({ s with eq := l }.setEgr w (.busy p))
      | some (none, l) => some ({ s with eq := l }.setEgr w .done)
      | none => none
    else none
  -- simple_switch.cpp:688-727
  | .egrClone w q =>
    match s.egr w with
    | .busy p => if w < c.n then some (s.enqueue c q (some p)) else none
    | _ => none
  -- simple_switch.cpp:731-734
  | .egrDrop w =>
    match s.egr w with
    | .busy _ => if w < c.n then some (s.setEgr w .idle) else none
    | _ => none
  -- simple_switch.cpp:762
  | .egrOut w =>
    match s.egr w with
    | .busy p => if w < c.n then some (s.setEgr w (.out p)) else none
    | _ => none
  -- queue.h:66-75
  | .egrSend w =>
    match s.egr w with
    | .out p => if w < c.n ∧ s.out.length < c.capOut then some ({ s with out := s.out ++ [some p] }.setEgr w .idle) else none
    | _ => none
  -- simple_switch.cpp:134-137,757-759, psa_switch.cpp:612
  | .egrBack w =>
    match s.egr w with
    | .busy p =>
      if w < c.n then
        if c.single then some (s.setEgr w (.back p))
        else if s.hi.length < c.capHi then some ({ s with hi := s.hi ++ [some p] }.setEgr w .idle)
        else some (s.setEgr w .idle)
      else none
    | _ => none
  -- queue.h:66-75
  | .egrPush w =>
    match s.egr w with
    | .back p => if w < c.n ∧ s.lo.length < c.capLo then some ({ s with lo := s.lo ++ [some p] }.setEgr w .idle) else none
    | _ => none
  -- simple_switch.cpp:380-389
  | .txPop =>
    match s.tx, s.out with
    | false, some p :: l => some { s with out := l, sent := s.sent ++ [p] }
    | false, none :: l => some { s with out := l, tx := true }
    | _, _ => none
  | .destroy => if s.main = .run then some { s with main := .input } else none
  -- simple_switch.cpp:138-140,286-287, psa_switch.cpp:222
  | .mainIn =>
    if s.main = .input then
      if c.single then
        if s.lo.length < c.capLo then some { s with lo := s.lo ++ [none], main := .egress 0 } else none
      else if s.hi.length < c.capHi then some { s with hi := s.hi ++ [none], main := .egress 0 }
      else none
    else none
  -- simple_switch.cpp:288-294, psa_switch.cpp:223-229
  | .mainEgr =>
    match s.main with
    | .egress i =>
      if i < c.n then
        if s.count (i, 0) < c.depth (i, 0) then some { s.enqueue c (i, 0) none with main := .egress (i + 1) }
        else if c.retry then none
        else some { s with main := .egress (i + 1) }
      else some { s with main := .output }
    | _ => none
  -- simple_switch.cpp:295
  | .mainOut =>
    if s.main = .output ∧ s.out.length < c.capOut then some { s with out := s.out ++ [none], main := .join } else none
  -- simple_switch.cpp:296-298
  | .mainJoin =>
    if s.main = .join ∧ s.ing = .done ∧ (∀ w, w < c.n → s.egr w = .done) ∧ s.tx = true then some { s with main := .fin } else none

/-- A sequence of steps. -/
def St.run (c : Cfg) (s : St) : List Label → Option St
  | [] => some s
  | l :: ls => (s.step c l).bind (·.run c ls)

end Bm.Shutdown
