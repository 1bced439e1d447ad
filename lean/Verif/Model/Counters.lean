import Verif.Model.Phv

/-!
# Model of counter arrays used by several threads

`Counter`, `CounterArray`, the primitive `count` and the functions of the control plane.

* A counter has two atomic variables.  A step of a thread is one access to one of them: every operation on a counter
  is a step for the bytes and then one for the packets; steps of threads come in any order.
* There is one array (the functions of the control plane look it up by its name first).
* How a big integer that does not fit is converted to `unsigned int` is left open (`conv`).
* As built by default (without `NDEBUG`; with it `count` has no check).
-/

namespace Bm.Counters

/-- A counter: bytes and packets (64 bits).  `/repo/include/bm/bm_sim/counters.h:76-77`. -/
structure Counter where
  bytes : Nat
  packets : Nat
  deriving Repr, DecidableEq

/-- Operations on one counter; `q` is the number of a query. -/
inductive Op
  | inc (i len : Nat)
  | set (i b p : Nat)
  | get (q i : Nat)
  deriving Repr, DecidableEq

/-- The counter of an operation. -/
def Op.idx : Op → Nat
  | .inc i _ => i
  | .set i _ _ => i
  | .get _ i => i

/-- The two variables of a counter. -/
inductive Half
  | bytes
  | packets
  deriving Repr, DecidableEq

/-- The steps of an operation, in the order of the code.
`/repo/include/bm/bm_sim/counters.h:58-61`, `/repo/src/bm_sim/counters.cpp:17-36`. -/
def Op.steps (o : Op) : List (Half × Op) := [(.bytes, o), (.packets, o)]

/-- One step on one counter.  `/repo/include/bm/bm_sim/counters.h:58-61`,
`/repo/src/bm_sim/counters.cpp:17-36`. -/
def Counter.step (c : Counter) : Half → Op → Counter
  | .bytes, .inc _ len => { c with bytes := (c.bytes + len) % 2 ^ 64 }
  | .packets, .inc _ _ => { c with packets := (c.packets + 1) % 2 ^ 64 }
  | .bytes, .set _ b _ => { c with bytes := b }
  | .packets, .set _ _ p => { c with packets := p }
  | _, .get _ _ => c

/-- What a step reads: the number of the query, which variable, and its value.
`/repo/src/bm_sim/counters.cpp:17-22`. -/
def Counter.read (c : Counter) (h : Half) : Op → List (Nat × Half × Nat)
  | .get q _ => [(q, h, match h with | .bytes => c.bytes | .packets => c.packets)]
  | _ => []

/-- Steps on an array: the array and what was read; `none` is an access outside of the array.
`/repo/include/bm/bm_sim/counters.h:105-125`. -/
def run (cs : List Counter) : List (Half × Op) → Option (List Counter × List (Nat × Half × Nat))
  | [] => some (cs, [])
  | (h, o) :: ms =>
    match cs[o.idx]? with
    | none => none
    | some c =>
      match run (cs.set o.idx (c.step h o)) ms with
      | none => none
      | some r => some (r.1, c.read h o ++ r.2)

/-- Calls of the data plane and the control plane. -/
inductive Call
  /-- primitive `count` with an index, for a packet with this ingress length -/
  | count (idx : Int) (len : Nat)
  | read (q idx : Nat)
  | write (idx b p : Nat)
  | reset
  deriving Repr, DecidableEq

/-- The operations of a call on an array of size `n`.
`/repo/targets/simple_switch/primitives.cpp:374-392`, `/repo/src/bm_sim/context.cpp:519-550`,
`/repo/src/bm_sim/counters.cpp:51-56`. -/
def Call.ops (conv : Int → Nat) (n : Nat) : Call → List Op
  | .count idx len => if conv idx < n then [.inc (conv idx) len] else []
  | .read q idx => if idx < n then [.get q idx] else []
  | .write idx b p => if idx < n then [.set idx b p] else []
  | .reset => (List.range n).map fun i => .set i 0 0

/-- The operations of the calls of a thread. -/
def threadOps (conv : Int → Nat) (n : Nat) (cs : List Call) : List Op := cs.flatMap (Call.ops conv n)

/-- The steps of a thread. -/
def threadSteps (conv : Int → Nat) (n : Nat) (cs : List Call) : List (Half × Op) :=
  (threadOps conv n cs).flatMap Op.steps

end Bm.Counters
