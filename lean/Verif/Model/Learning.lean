import Verif.Model.UMap

/-!
# Model of `LearnEngine::LearnList`

Transcribes `/repo/src/bm_sim/learning.cpp:136-222,339-534`.

Concurrency: all member functions hold the mutex of the list except while waiting on a condition
variable and while the transmit thread is in `send_msgs`/the callback.  The operations below are the
pieces of code between releases of the mutex, so every interleaving is a sequence of them.  A thread
that waits in `process_full_buffer` is counted in `waiting`; `wake` is such a thread finding the
condition true.  Whether the timeout has expired is an arbitrary input of `transmit`.

Samples are opaque non-empty byte strings of type `T`; the vectors of bytes are lists of samples.
`filter` is an `unordered_set`; its elements carry an identity so that the stored references to them
can be seen to dangle.  Identifiers and counters do not overflow.
-/

namespace Bm.Learn

/-- `FilterPtrs`: the references are identities of elements of `filter`.
`/repo/src/bm_sim/learning.cpp:126-134`. -/
structure FilterPtrs where
  unacked : Nat := 0
  refs : List Nat := []

/-- `LearnList`, data members.  `/repo/src/bm_sim/learning.cpp:184-222`. -/
structure LL (T : Type) where
  buffer : List T := []
  bufferId : Nat := 0
  numSamples : Nat := 0
  maxSamples : Nat
  filter : List (Nat × T) := []
  nextRef : Nat := 0
  old : UMap FilterPtrs := {}
  tmp : List T := []
  numTmp : Nat := 0
  busy : Bool := false
  waiting : Nat := 0

variable {T : Type} [DecidableEq T]

/-- `swap_buffers`.  `/repo/src/bm_sim/learning.cpp:348-354`. -/
def swapBuffers (s : LL T) : LL T :=
  { s with tmp := s.buffer, buffer := s.tmp, numTmp := s.numSamples, numSamples := 0,
           bufferId := s.bufferId + 1 }

/-- `process_full_buffer`: swaps at once or starts waiting.
`/repo/src/bm_sim/learning.cpp:356-364`. -/
def processFull (s : LL T) : LL T :=
  if s.tmp.length ≠ 0 then { s with waiting := s.waiting + 1 } else swapBuffers s

/-- A waiting thread looks at the condition again; `none` when it keeps waiting (or there is none).
`/repo/src/bm_sim/learning.cpp:358-361`. -/
def wake (s : LL T) : Option (LL T) :=
  if s.waiting ≠ 0 ∧ s.tmp.length = 0 then some (swapBuffers { s with waiting := s.waiting - 1 })
  else none

/-- `add_sample`, after building the sample.  `/repo/src/bm_sim/learning.cpp:366-392`. -/
def addSample (s : LL T) (x : T) : LL T :=
  if s.filter.any (fun p => p.2 = x) then s
  else
    let fp := (s.old.find? s.bufferId).getD {}
    let s1 := { s with
      buffer := s.buffer ++ [x]
      numSamples := s.numSamples + 1
      filter := (s.nextRef, x) :: s.filter
      nextRef := s.nextRef + 1
      old := s.old.assign s.bufferId ⟨fp.unacked + 1, fp.refs ++ [s.nextRef]⟩ }
    if s1.numSamples = 1 ∧ s1.maxSamples > 1 then s1
    else if s1.numSamples ≥ s1.maxSamples then processFull s1
    else s1

/-- A notification: buffer id, number of samples, samples. -/
structure Msg (T : Type) where
  id : Nat
  num : Nat
  samples : List T
deriving DecidableEq

/-- `buffer_transmit` up to and including the message, which reads `buffer_tmp` and `buffer_id`
without the mutex.  `none`: the thread keeps waiting (or is busy).  `expired`: the timeout is set and
has passed.  `/repo/src/bm_sim/learning.cpp:394-457`. -/
def transmit (s : LL T) (expired : Bool) : Option (Msg T × LL T) :=
  if s.busy then none
  else if s.tmp.length = 0 ∧ (expired = false ∨ s.numSamples = 0) then none
  else if s.tmp.length = 0 then
    let s1 := { swapBuffers s with busy := true }
    some (⟨s1.bufferId - 1, s.numSamples, s1.tmp⟩, s1)
  else some (⟨s.bufferId - 1, s.numTmp, s.tmp⟩, { s with busy := true })

/-- The end of `buffer_transmit`.  `/repo/src/bm_sim/learning.cpp:459-467`. -/
def transmitEnd (s : LL T) : Option (LL T) :=
  if s.busy then some { s with busy := false, tmp := [] } else none

/-- `filter.erase(ref)` for a stored reference; `none`: the reference dangles. -/
def eraseRef (filter : List (Nat × T)) (ref : Nat) : Option (List (Nat × T)) :=
  if filter.any (fun p => p.1 = ref) then some (filter.filter fun p => p.1 ≠ ref) else none

/-- `--n` on a `size_t`. -/
def dec (n : Nat) : Nat := if n = 0 then 2 ^ 64 - 1 else n - 1

/-- The loop of `ack`.  `fp` is `none` once `old_buffers.erase(it)` has destroyed the object that
`filter_ptrs` refers to.  Outer `none`: use of a dangling reference.
`/repo/src/bm_sim/learning.cpp:485-495`. -/
def ackLoop : List Int → Option FilterPtrs → List (Nat × T) →
    Option (Option FilterPtrs × List (Nat × T))
  | [], fp, filter => some (fp, filter)
  | i :: is, fp, filter =>
    if i < 0 then ackLoop is fp filter
    else match fp with
      | none => none
      | some p =>
        match p.refs[i.toNat]? with
        | none => ackLoop is fp filter
        | some ref => do
          let filter' ← eraseRef filter ref
          let p' := { p with unacked := dec p.unacked }
          ackLoop is (if p'.unacked = 0 then none else some p') filter'

/-- `ack`.  `/repo/src/bm_sim/learning.cpp:477-496`. -/
def ack (s : LL T) (b : Nat) (ids : List Int) : Option (LL T) :=
  match s.old.find? b with
  | none => some s
  | some fp => do
    let (fp', filter) ← ackLoop ids (some fp) s.filter
    let old := match fp' with
      | none => s.old.erase b
      | some p => s.old.modify b fun _ => p
    return { s with filter := filter, old := old }

/-- The loop of `ack_buffer`.  `/repo/src/bm_sim/learning.cpp:512-514`. -/
def eraseAll : List Nat → List (Nat × T) → Option (List (Nat × T))
  | [], filter => some filter
  | r :: rs, filter => do
    let filter' ← eraseRef filter r
    eraseAll rs filter'

/-- `ack_buffer`.  `/repo/src/bm_sim/learning.cpp:498-517`. -/
def ackBuffer (s : LL T) (b : Nat) : Option (LL T) :=
  match s.old.find? b with
  | none => some s
  | some fp => do
    let filter ← if fp.unacked = s.filter.length then some [] else eraseAll fp.refs s.filter
    return { s with filter := filter, old := s.old.erase b }

/-- `set_max_samples`.  `/repo/src/bm_sim/learning.cpp:339-346`. -/
def setMax (s : LL T) (n : Nat) : LL T :=
  let s := { s with maxSamples := n }
  if s.numSamples > 0 ∧ s.numSamples ≥ s.maxSamples then processFull s else s

/-- `reset_state`.  `none`: it changes `buffer_tmp` while the transmit thread reads it without the
mutex (a data race).  `/repo/src/bm_sim/learning.cpp:524-534`. -/
def reset (s : LL T) : Option (LL T) :=
  if s.busy then none
  else some { s with buffer := [], bufferId := 0, numSamples := 0, numTmp := 0, filter := [],
                     old := {}, tmp := [] }

/-- Operations. -/
inductive Op (T : Type)
  | learn (x : T)
  | wake
  | transmit (expired : Bool)
  | transmitEnd
  | ack (b : Nat) (ids : List Int)
  | ackBuffer (b : Nat)
  | setMax (n : Nat)
  | reset

/-- What is observed: nothing, that the operation cannot happen now, or a notification. -/
inductive Res (T : Type)
  | ok
  | waits
  | msg (m : Msg T)
deriving DecidableEq

/-- One operation; `none` is undefined behaviour. -/
def exec (s : LL T) : Op T → Option (Res T × LL T)
  | .learn x => some (.ok, addSample s x)
  | .wake => match wake s with
    | none => some (.waits, s)
    | some s' => some (.ok, s')
  | .transmit e => match transmit s e with
    | none => some (.waits, s)
    | some (m, s') => some (.msg m, s')
  | .transmitEnd => match transmitEnd s with
    | none => some (.waits, s)
    | some s' => some (.ok, s')
  | .ack b ids => (ack s b ids).map fun s' => (.ok, s')
  | .ackBuffer b => (ackBuffer s b).map fun s' => (.ok, s')
  | .setMax n => some (.ok, setMax s n)
  | .reset => (reset s).map fun s' => (.ok, s')

/-- A history. -/
def run (s : LL T) : List (Op T) → Option (List (Op T × Res T) × LL T)
  | [] => some ([], s)
  | op :: ops => do
    let (r, s1) ← exec s op
    let (t, s2) ← run s1 ops
    return ((op, r) :: t, s2)

end Bm.Learn
