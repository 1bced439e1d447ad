import Verif.Model.PacketBuffer

/-!
# What the data of a packet should be

Contents of packets as lists of bytes, without memory or pointers.  A snapshot is the content at the time
it was taken, with the number of its last bytes that nobody has written since.
-/

namespace Bm.PBuf.Spec

/-- Capacity, content, snapshots (content and number of last bytes not written since), truncation. -/
structure S where
  cap : Nat
  data : Bytes
  snaps : List (Bytes × Nat)
  trunc : Nat

/-- At most `n` of the last bytes of the snapshots are still as they were. -/
def touch (n : Nat) (l : List (Bytes × Nat)) : List (Bytes × Nat) := l.map fun x => (x.1, min x.2 n)

/-- `d` is as long as `s`, and its last `k` bytes are those of `s`. -/
def Same (k : Nat) (d s : Bytes) : Prop :=
  d.length = s.length ∧ ∀ i, i < s.length → s.length - k ≤ i → d[i]? = s[i]?

/-- The operations that can be executed. -/
def Enabled (s : S) : Op → Prop
  | .prepend bs => s.data.length + bs.length ≤ s.cap
  | .remove n => n ≤ s.data.length
  | .overwrite off bs => off + bs.length ≤ s.data.length
  | .save => True
  | .restore i => i < s.snaps.length
  | .truncate _ => True

/-- What an operation may give. -/
inductive Step (s : S) : Op → S → Prop
  | prepend (bs : Bytes) :
      Step s (.prepend bs) { s with data := bs ++ s.data, snaps := touch s.data.length s.snaps }
  | remove (n : Nat) : Step s (.remove n) { s with data := s.data.drop n }
  | overwrite (off : Nat) (bs : Bytes) :
      Step s (.overwrite off bs)
        { s with data := s.data.take off ++ bs ++ s.data.drop (off + bs.length),
                 snaps := touch (s.data.length - (off + bs.length)) s.snaps }
  | save : Step s .save { s with snaps := s.snaps ++ [(s.data, s.data.length)] }
  | restore (i : Nat) (x : Bytes × Nat) (d : Bytes) : s.snaps[i]? = some x → Same x.2 d x.1 →
      Step s (.restore i) { s with data := d }
  | truncate (n : Nat) : Step s (.truncate n) { s with trunc := min n s.trunc }

/-- What operations one after the other may give. -/
inductive Steps : S → List Op → S → Prop
  | nil (s : S) : Steps s [] s
  | cons {s t u : S} {o : Op} {os : List Op} : Enabled s o → Step s o t → Steps t os u → Steps s (o :: os) u

/-- What the documentation says (`packet.h:181-183`): a snapshot is the content at the time it was taken. -/
def docRun : Bytes × List Bytes → List Op → Option (Bytes × List Bytes)
  | s, [] => some s
  | (d, l), .prepend bs :: os => docRun (bs ++ d, l) os
  | (d, l), .remove n :: os => docRun (d.drop n, l) os
  | (d, l), .overwrite off bs :: os => docRun (d.take off ++ bs ++ d.drop (off + bs.length), l) os
  | (d, l), .save :: os => docRun (d, l ++ [d]) os
  | (_, l), .restore i :: os =>
    match l[i]? with
    | some d => docRun (d, l) os
    | none => none
  | s, .truncate _ :: os => docRun s os

/-- No snapshot is used after something was put in front or overwritten since it was taken; `count` is the
number of snapshots, `dead` how many of them must not be used any more. -/
def quiet (count dead : Nat) : List Op → Bool
  | [] => true
  | .prepend _ :: os => quiet count count os
  | .overwrite _ _ :: os => quiet count count os
  | .save :: os => quiet (count + 1) dead os
  | .restore i :: os => decide (dead ≤ i) && quiet count dead os
  | .remove _ :: os => quiet count dead os
  | .truncate _ :: os => quiet count dead os

/-- Bytes by which a packet has grown after passes (negative if it has shrunk). -/
def growth : List (Nat × Bytes × Bytes) → Int
  | [] => 0
  | (n, hdrs, _) :: r => (hdrs.length : Int) - n + growth r

/-- The content after passes. -/
def afterPasses (d : Bytes) : List (Nat × Bytes × Bytes) → Bytes
  | [] => d
  | (n, hdrs, _) :: r => afterPasses (hdrs ++ d.drop n) r

end Bm.PBuf.Spec
