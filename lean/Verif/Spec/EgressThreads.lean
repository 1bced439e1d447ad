import Verif.Model.EgressThreads
import Verif.Spec.Queueing

/-!
# What is asked of egress queues used by threads
-/

namespace Bm.EgressThreads.Spec

/-- Every worker is served by one thread only: thread `own w` is the one that calls `pop_back` for worker `w`. -/
def Owned {Op : Type} (own : Nat → Nat) : Label Op → Prop
  | .callPop i w => i = own w
  | _ => True

/-- Nothing moves until a call is made, the clock advances or a thread wakes up for no reason: every thread is outside
the object or asleep. -/
def Quiet {S : Type} (s : Sys S) : Prop := ∀ t ∈ s.threads, t = .idle ∨ ∃ w d, t = .asleep w d

/-- Thread `i` sleeps for worker `w` and the clock shows `now`: its time has come, and when it goes on (not earlier than
`now`), it gets the element `x` of priority `p` in queue `q`. -/
def Served {T S Op : Type} (B : Buf T S Op) (s : Sys S) (i w : Nat) (now now' : Int) (q p : Nat) (x : T) : Prop :=
  ∃ s1 s2, s.step B (.ring i now) = some (s1, []) ∧
    s1.step B (.test i now') = some (s2, [(B.pop w now', .item q p x)])

end Bm.EgressThreads.Spec
