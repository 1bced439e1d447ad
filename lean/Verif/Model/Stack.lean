/-!
# Model of `Stack`

Transcribes `/repo/src/bm_sim/stacks.cpp:22-276` and `/repo/include/bm/bm_sim/stacks.h`.  A stack holds
references to headers or unions (here: numbers) and a counter; the objects themselves are in a store
of type `σ`, on which `swap_values`, `mark_valid` and `mark_invalid` are operations.  `size_t` is 64
bits wide.  Accessing an element outside the vector is `none`.
-/

namespace Bm

/-- `Stack`, data members.  `/repo/include/bm/bm_sim/stacks.h:146-148`. -/
structure Stack where
  elements : List Nat
  next : Nat
deriving DecidableEq, Repr

/-- `T::swap_values`, `T::mark_valid` and `T::mark_invalid`, `T` being `Header` or `HeaderUnion`. -/
structure ElemOps (σ : Type) where
  swap : σ → Nat → Nat → Option σ
  markValid : σ → Nat → Option σ
  markInvalid : σ → Nat → Option σ

namespace Stack

variable {σ : Type} (ops : ElemOps σ)

/-- `elements[i].get().swap_values(&elements[j].get())`. -/
def swapAt (st : Stack) (s : σ) (i j : Nat) : Option σ := do
  ops.swap s (← st.elements[i]?) (← st.elements[j]?)

/-- `for (i = from; i < to; i++) elements[i].swap_values(elements[i + num])`, with `n = to - from`
iterations.  `/repo/src/bm_sim/stacks.cpp:33-35,46-48,92-94,108-110`. -/
def swapUp (st : Stack) (num : Nat) : Nat → Nat → σ → Option σ
  | _, 0, s => some s
  | i, n + 1, s => do swapUp st num (i + 1) n (← swapAt ops st s i (i + num))

/-- `for (i = start; i > num - 1; i--) elements[i].swap_values(elements[i - num])`, with
`n = start + 1 - num` iterations.  `/repo/src/bm_sim/stacks.cpp:59-61,71-73,123-125,136-138`. -/
def swapDown (st : Stack) (num : Nat) : Nat → σ → Option σ
  | 0, s => some s
  | n + 1, s => do swapDown st num n (← swapAt ops st s (num + n) n)

/-- `for (i = from; i < to; i++) elements[i].mark_...()`, with `n = to - from` iterations. -/
def markAll (mark : σ → Nat → Option σ) (st : Stack) : Nat → Nat → σ → Option σ
  | _, 0, s => some s
  | i, n + 1, s => do markAll mark st (i + 1) n (← mark s (← st.elements[i]?))

/-- Iterations of the loop that starts at `limit - 1` in `size_t` arithmetic and goes down to `num`. -/
def downCount (limit num : Nat) : Nat := (if limit = 0 then 2 ^ 64 else limit) - num

/-- `StackLegacy::pop_front()`.  `/repo/src/bm_sim/stacks.cpp:28-38`. -/
def popFrontLegacy1 (st : Stack) (s : σ) : Option (Nat × Stack × σ) :=
  if st.next = 0 then some (0, st, s)
  else do
    let st := { st with next := st.next - 1 }
    let s ← swapUp ops st 1 0 st.next s
    let s ← ops.markInvalid s (← st.elements[st.next]?)
    return (1, st, s)

/-- `StackLegacy::pop_front(num)`.  `/repo/src/bm_sim/stacks.cpp:40-53`. -/
def popFrontLegacy (st : Stack) (num : Nat) (s : σ) : Option (Nat × Stack × σ) :=
  if num = 0 then some (0, st, s)
  else do
    let popped := min st.next num
    let st := { st with next := st.next - popped }
    let s ← swapUp ops st num 0 st.next s
    let s ← markAll ops.markInvalid st st.next popped s
    return (popped, st, s)

/-- `StackLegacy::push_front()`.  `/repo/src/bm_sim/stacks.cpp:55-64`. -/
def pushFrontLegacy1 (st : Stack) (s : σ) : Option (Nat × Stack × σ) := do
  let st := if st.next < st.elements.length then { st with next := st.next + 1 } else st
  let s ← swapDown ops st 1 (downCount st.next 1) s
  let s ← ops.markValid s (← st.elements[0]?)
  return (1, st, s)

/-- `StackLegacy::push_front(num)`; `next + num` wraps around.
`/repo/src/bm_sim/stacks.cpp:66-79`. -/
def pushFrontLegacy (st : Stack) (num : Nat) (s : σ) : Option (Nat × Stack × σ) :=
  if num = 0 then some (0, st, s)
  else do
    let st := { st with next := min st.elements.length ((st.next + num) % 2 ^ 64) }
    let s ← swapDown ops st num (downCount st.next num) s
    let pushed := min st.elements.length num
    let s ← markAll ops.markValid st 0 pushed s
    return (pushed, st, s)

/-- `StackP4_16::pop_front()`; for an empty vector `size - 1` wraps around and the first access fails,
as does `elements[size - 1]` here.  `/repo/src/bm_sim/stacks.cpp:87-97`. -/
def popFrontP416_1 (st : Stack) (s : σ) : Option (Nat × Stack × σ) := do
  let st := if st.next > 0 then { st with next := st.next - 1 } else st
  let size := st.elements.length
  let s ← swapUp ops st 1 0 (size - 1) s
  let s ← ops.markInvalid s (← st.elements[size - 1]?)
  return (1, st, s)

/-- `StackP4_16::pop_front(num)`.  `/repo/src/bm_sim/stacks.cpp:99-116`. -/
def popFrontP416 (st : Stack) (num : Nat) (s : σ) : Option (Nat × Stack × σ) :=
  if num = 0 then some (0, st, s)
  else do
    let size := st.elements.length
    let st := { st with next := st.next - min st.next num }
    let n := if num < size then size - num else 0
    let s ← swapUp ops st num 0 n s
    let s ← markAll ops.markInvalid st n (size - n) s
    return (min num size, st, s)

/-- `StackP4_16::push_front()`.  `/repo/src/bm_sim/stacks.cpp:118-128`. -/
def pushFrontP416_1 (st : Stack) (s : σ) : Option (Nat × Stack × σ) := do
  let size := st.elements.length
  let st := if st.next < size then { st with next := st.next + 1 } else st
  let s ← swapDown ops st 1 (downCount size 1) s
  let s ← ops.markInvalid s (← st.elements[0]?)
  return (1, st, s)

/-- `StackP4_16::push_front(num)`; `next + num` wraps around.
`/repo/src/bm_sim/stacks.cpp:130-144`. -/
def pushFrontP416 (st : Stack) (num : Nat) (s : σ) : Option (Nat × Stack × σ) :=
  if num = 0 then some (0, st, s)
  else do
    let size := st.elements.length
    let st := { st with next := min size ((st.next + num) % 2 ^ 64) }
    let s ← swapDown ops st num (downCount size num) s
    let pushed := min size num
    let s ← markAll ops.markInvalid st 0 pushed s
    return (pushed, st, s)

/-- `pop_back`.  `/repo/src/bm_sim/stacks.cpp:182-189`. -/
def popBack (st : Stack) (s : σ) : Option (Nat × Stack × σ) :=
  if st.next = 0 then some (0, st, s)
  else do
    let st := { st with next := st.next - 1 }
    return (1, st, ← ops.markInvalid s (← st.elements[st.next]?))

/-- `push_back`.  `/repo/src/bm_sim/stacks.cpp:191-198`. -/
def pushBack (st : Stack) (s : σ) : Option (Nat × Stack × σ) :=
  if st.next = st.elements.length then some (0, st, s)
  else do
    let s ← ops.markValid s (← st.elements[st.next]?)
    return (1, { st with next := st.next + 1 }, s)

/-- `reset`.  `/repo/src/bm_sim/stacks.cpp:218-222`. -/
def reset (st : Stack) : Stack := { st with next := 0 }

end Stack

end Bm
