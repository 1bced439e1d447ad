import Verif.Model.Pcap

/-!
# What replaying capture files should do
-/

namespace Bm.Pcap.Spec

/-- A time in microseconds. -/
def us (t : TV) : Int := t.sec * 1000000 + t.usec

/-- The microseconds are fewer than a second. -/
def Wf (t : TV) : Prop := 0 ≤ t.usec ∧ t.usec < 1000000

/-- A record that was read and captured completely. -/
def Complete (x : Option Rec) : Prop := ∃ r, x = some r ∧ r.caplen = r.len

/-- What is sent at round `k`, given when it is due: at once if it is late, else after a sleep of the missing
time. -/
def Timed (env : Env) (k : Nat) (due : Int) (at' : TV) : Prop :=
  (due ≤ us (env.now k) ∧ at' = env.now k) ∨
  (us (env.now k) < due ∧ ∃ d, Wf d ∧ us d = due - us (env.now k) ∧ at' = env.wake k d)

/-- The packets given to the handler are those of `src` (number of the file and record), one by one; if timing
is respected (`due`), at the right times. -/
def Agree (env : Env) (ports : List Nat) (due : Option (Rec → Int)) : Nat → List (Nat × Rec) → List Sent → Prop
  | _, [], [] => True
  | k, (i, r) :: src, s :: sent =>
    s.idx = i ∧ ports[i]? = some s.port ∧ s.data = r.data ∧ s.len = r.len ∧
      (match due with
        | none => s.at' = none
        | some f => ∃ t, s.at' = some t ∧ Timed env k (f r) t) ∧
      Agree env ports due (k + 1) src sent
  | _, _, _ => False

/-- The records taken from file `i`. -/
def ofFile (i : Nat) (src : List (Nat × Rec)) : List (Option Rec) :=
  (src.filter (fun x => x.1 == i)).map (fun x => some x.2)

/-- Order of packets: earlier ones first; packets of the same time in the order of the files. -/
def Before (x y : Nat × Rec) : Prop :=
  us x.2.ts < us y.2.ts ∨ (us x.2.ts = us y.2.ts ∧ x.1 ≤ y.1)

/-- The records of a file are sorted by time. -/
def Sorted (q : List (Option Rec)) : Prop :=
  q.Pairwise fun x y => ∀ r r', x = some r → y = some r' → us r.ts ≤ us r'.ts

/-- The packet sent to port `p`, if the call is one. -/
def sentTo (p : Nat) : WOp → Option Bytes
  | .send r d => if r = p then some d else none
  | .add _ => none

/-- What was written for port `p`: the packets sent to it since the first file for it was added. -/
def written (p : Nat) : List WOp → List Bytes
  | [] => []
  | .add q :: os =>
    if q = p then os.filterMap (sentTo p) else written p os
  | .send _ _ :: os => written p os

end Bm.Pcap.Spec
