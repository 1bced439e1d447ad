import Verif.Model.Save
import Verif.Model.UMap

/-!
# Byte containers and their memory

`/repo/include/bm/bm_sim/bytecontainer.h`, `/repo/include/bm/bm_sim/short_alloc.h`.

A `ByteContainer` is a `std::vector<char>` whose allocator takes its blocks from an arena of 16 bytes inside the
object, and from `operator new` when the arena has no room.  The model keeps addresses: one memory for the whole
process, the blocks of `operator new` which are not deleted yet, and the containers which are not destroyed yet.

Choices of the environment (`Env`): the address returned by `operator new`, the place of a new container, and the
capacity a vector asks for when it has to grow.  An address which overlaps storage in use is not a choice of the
environment (`Fault.env`).

Simplifications:
- The address space has no end, `operator new` does not fail, and nobody asks for a vector of 2^63 bytes
  (`std::length_error`).
- Alignments are powers of two, so `& ~(alignment - 1)` rounds down to a multiple.
- `ptr_` and the three pointers of the vector are kept beside the memory, not in it; their place is reserved.
- A vector which has to grow first moves all its elements to the new block, then inserts in place
  (implementations construct the new elements before they move the others).
- Capacities asked for by constructors, `reserve` and `assign` are exact, as in libstdc++.
- The constructor from a hexadecimal string is the default constructor and one `push_back` for each byte of
  `Save.fromHex` (`Model/Save`).
-/

namespace Bm.ByteCont

/-! ## The arena -/

/-- `arena<N, alignment>`: `base` is the address of `buf_`.  `/repo/include/bm/bm_sim/short_alloc.h:39-43`. -/
structure Arena where
  N : Nat
  al : Nat
  base : Nat
  ptr : Nat
  deriving DecidableEq

/-- `arena()`.  `/repo/include/bm/bm_sim/short_alloc.h:47`. -/
def Arena.mk' (N al base : Nat) : Arena := { N, al, base, ptr := base }

/-- `align_up`, with the arithmetic of `size_t`.  `/repo/include/bm/bm_sim/short_alloc.h:59-62`. -/
def alignUp (al n : Nat) : Nat :=
  let x := (n + (al - 1)) % 2 ^ 64
  x - x % al

/-- `pointer_in_buffer`.  `/repo/include/bm/bm_sim/short_alloc.h:64-66`. -/
def Arena.inBuf (a : Arena) (p : Nat) : Bool := decide (a.base ≤ p) && decide (p ≤ a.base + a.N)

/-- `allocate`: `none` if the assertion fails, `some none` for `operator new`, otherwise the block and the arena.
`/repo/include/bm/bm_sim/short_alloc.h:69-88`. -/
def Arena.allocate (a : Arena) (n : Nat) : Option (Option (Nat × Arena)) :=
  if a.inBuf a.ptr then
    if alignUp a.al n ≤ a.base + a.N - a.ptr then some (some (a.ptr, { a with ptr := a.ptr + alignUp a.al n }))
    else some none
  else none

/-- `deallocate`: `none` if the assertion fails, `some none` for `operator delete`.
`/repo/include/bm/bm_sim/short_alloc.h:90-103`. -/
def Arena.deallocate (a : Arena) (p n : Nat) : Option (Option Arena) :=
  if a.inBuf a.ptr then
    if a.inBuf p then some (some (if p + alignUp a.al n = a.ptr then { a with ptr := p } else a))
    else some none
  else none

/-! ## The process -/

/-- How a step may fail: a failed assertion, undefined behaviour, or a choice the environment cannot make. -/
inductive Fault | abort | ub | env
  deriving DecidableEq, Repr

/-- A container: its arena and its vector.  `/repo/include/bm/bm_sim/bytecontainer.h:267-269`. -/
structure Cont where
  a : Arena
  start : Nat := 0
  cap : Nat := 0
  size : Nat := 0
  deriving DecidableEq

/-- `S`.  `/repo/include/bm/bm_sim/bytecontainer.h:32`. -/
def S : Nat := 16

/-- `sizeof(ByteContainer)`: `buf_`, `ptr_`, the reference in the allocator, three pointers.
`/repo/include/bm/bm_sim/short_alloc.h:42-43,115`. -/
def objSize : Nat := 56

/-- The memory of the process, the blocks of `operator new` in use, the containers in use. -/
structure World where
  mem : Nat → UInt8 := fun _ => 0
  heap : List (Nat × Nat) := []
  conts : UMap Cont := {}

/-- Two ranges of addresses (first address and length) have nothing in common. -/
def apart (a n b m : Nat) : Bool := decide (a + n ≤ b) || decide (b + m ≤ a)

/-- The range is used for nothing: what `operator new` and the place of a new object guarantee. -/
def World.free (w : World) (a n : Nat) : Bool :=
  w.heap.all (fun b => apart a (max n 1) b.1 (max b.2 1)) &&
    w.conts.l.all (fun p => apart a (max n 1) p.2.a.base objSize)

/-- The range lies in a block of `operator new`, or in the buffer of an arena. -/
def World.valid (w : World) (a n : Nat) : Bool :=
  n == 0 || w.heap.any (fun b => decide (b.1 ≤ a) && decide (a + n ≤ b.1 + b.2)) ||
    w.conts.l.any (fun p => decide (p.2.a.base ≤ a) && decide (a + n ≤ p.2.a.base + p.2.a.N))

/-- `memmove`, for the copies between and in vectors. -/
def World.move (w : World) (dst src n : Nat) : Except Fault World :=
  if w.valid dst n && w.valid src n then
    .ok { w with mem := fun a => if dst ≤ a ∧ a < dst + n then w.mem (src + (a - dst)) else w.mem a }
  else .error .ub

/-- Bytes from elsewhere written to memory. -/
def World.put (w : World) (dst : Nat) (bs : Bytes) : Except Fault World :=
  if w.valid dst bs.length then
    .ok { w with mem := fun a => if dst ≤ a ∧ a < dst + bs.length then bs.getD (a - dst) 0 else w.mem a }
  else .error .ub

/-- A container in use; the use of any other is undefined. -/
def World.get (w : World) (i : Nat) : Except Fault Cont :=
  match w.conts.find? i with
  | some c => .ok c
  | none => .error .ub

/-- The object changes. -/
def World.setC (w : World) (i : Nat) (c : Cont) : World := { w with conts := w.conts.assign i c }

/-- `operator new`.  `/repo/include/bm/bm_sim/short_alloc.h:87`. -/
def World.opNew (w : World) (q n : Nat) : Except Fault World :=
  if w.free q n then .ok { w with heap := (q, n) :: w.heap } else .error .env

/-- `operator delete`: undefined unless the block is in use.  `/repo/include/bm/bm_sim/short_alloc.h:102`. -/
def World.opDelete (w : World) (p : Nat) : Except Fault World :=
  if p ∈ w.heap.map Prod.fst then .ok { w with heap := w.heap.filter fun b => b.1 ≠ p } else .error .ub

/-- `short_alloc::allocate` of container `i`.  A vector does not ask for more than `max_size()`.
`/repo/include/bm/bm_sim/short_alloc.h:133-136`. -/
def World.alloc (w : World) (i n q : Nat) : Except Fault (World × Nat) := do
  let c ← w.get i
  if 2 ^ 63 ≤ n then .error .env else
  match c.a.allocate n with
  | none => .error .abort
  | some (some (p, a)) => .ok (w.setC i { c with a := a }, p)
  | some none => .ok (← w.opNew q n, q)

/-- `short_alloc::deallocate` of container `i`.  `/repo/include/bm/bm_sim/short_alloc.h:137-140`. -/
def World.dealloc (w : World) (i p n : Nat) : Except Fault World := do
  let c ← w.get i
  match c.a.deallocate p n with
  | none => .error .abort
  | some (some a) => .ok (w.setC i { c with a := a })
  | some none => w.opDelete p

/-- A vector gives its block back, if it has one.  `/repo/include/bm/bm_sim/short_alloc.h:137-140`. -/
def World.release (w : World) (i p n : Nat) : Except Fault World := if n = 0 then .ok w else w.dealloc i p n

/-- The vector of container `i` moves to a block of `n` bytes.  `std::vector`; the calls of the allocator are those
at `/repo/include/bm/bm_sim/short_alloc.h:133-140`. -/
def World.grow (w : World) (i n q : Nat) : Except Fault World := do
  let c ← w.get i
  let (w1, p) ← w.alloc i n q
  let w2 ← w1.move p c.start c.size
  let w3 ← w2.release i c.start c.cap
  let c3 ← w3.get i
  return w3.setC i { c3 with start := p, cap := n }

/-- The number of elements changes. -/
def World.setSize (w : World) (i n : Nat) : Except Fault World := do
  let c ← w.get i
  return w.setC i { c with size := n }

/-- What the environment chooses: an address for `operator new`, a capacity for vectors which grow, a place for a
new object. -/
structure Env where
  addr : Nat := 0
  cap : Nat := 0
  base : Nat := 0

/-- Room for `n` elements at least: vectors which grow while elements are inserted choose the capacity themselves. -/
def World.room (w : World) (i n : Nat) (e : Env) : Except Fault World := do
  let c ← w.get i
  if n ≤ c.cap then return w else w.grow i (max e.cap n) e.addr

/-- `bytes.reserve(n)`.  `/repo/include/bm/bm_sim/bytecontainer.h:235-237`. -/
def World.reserve (w : World) (i n : Nat) (e : Env) : Except Fault World := do
  let c ← w.get i
  if n ≤ c.cap then return w else w.grow i n e.addr

/-- A source of bytes: another container, or bytes which are not in a container (`char *`, `std::string`,
`std::vector<char>`). -/
inductive Src | cont (j : Nat) | raw (bs : Bytes)
  deriving DecidableEq

/-- The number of bytes of the source.  The source must not be the container `i` itself (iterators of the vector
itself are not allowed in `insert` and `assign`; `/repo/include/bm/bm_sim/bytecontainer.h:144-145`). -/
def World.srcLen (w : World) (i : Nat) : Src → Except Fault Nat
  | .cont j => if j = i then .error .ub else do return (← w.get j).size
  | .raw bs => .ok bs.length

/-- The bytes of the source are copied. -/
def World.fill (w : World) (dst : Nat) : Src → Except Fault World
  | .cont j => do
    let c ← w.get j
    w.move dst c.start c.size
  | .raw bs => w.put dst bs

/-- `bytes.insert(pos, first, last)`.  `/repo/include/bm/bm_sim/bytecontainer.h:146-175`. -/
def World.insert (w : World) (i pos : Nat) (s : Src) (e : Env) : Except Fault World := do
  let n ← w.srcLen i s
  let c ← w.get i
  if c.size < pos then .error .ub else
  let w1 ← w.room i (c.size + n) e
  let c1 ← w1.get i
  let w2 ← w1.move (c1.start + pos + n) (c1.start + pos) (c1.size - pos)
  let w3 ← w2.fill (c1.start + pos) s
  w3.setSize i (c1.size + n)

/-- `bytes.assign(first, last)`.  `/repo/include/bm/bm_sim/bytecontainer.h:103-106`. -/
def World.assign (w : World) (i : Nat) (s : Src) (e : Env) : Except Fault World := do
  let n ← w.srcLen i s
  let w0 ← w.setSize i 0
  let w1 ← w0.reserve i n e
  let c1 ← w1.get i
  let w2 ← w1.fill c1.start s
  w2.setSize i n

/-- How a container is made. -/
inductive Init | empty | fill (n : Nat) (x : UInt8) | copy (s : Src)
  deriving DecidableEq

/-- The operations on containers. -/
inductive Op
  | new (i : Nat) (k : Init)
  | destroy (i : Nat)
  | assign (i j : Nat)
  | insert (i pos : Nat) (s : Src)
  | append (i : Nat) (s : Src)
  | push (i : Nat) (x : UInt8)
  | set (i n : Nat) (x : UInt8)
  | clear (i : Nat)
  | reserve (i n : Nat)
  | resize (i n : Nat) (x : UInt8)
  | mask (i j : Nat)
  deriving DecidableEq

/-- The object comes to life, with an empty arena and a vector without block. -/
def World.born (w : World) (i : Nat) (e : Env) : Except Fault World :=
  match w.conts.find? i with
  | some _ => .error .ub
  | none => if w.free e.base objSize then .ok (w.setC i { a := Arena.mk' S 1 e.base }) else .error .env

/-- The constructors.  `/repo/include/bm/bm_sim/bytecontainer.h:45-60,100-101`. -/
def World.new (w : World) (i : Nat) (k : Init) (e : Env) : Except Fault World :=
  match k with
  | .empty => do (← w.born i e).reserve i S e
  | .fill n x => do (← w.born i e).assign i (.raw (List.replicate n x)) e
  | .copy s => do (← w.born i e).assign i s e

/-- The destructor: the vector first, then the arena.  `/repo/include/bm/bm_sim/bytecontainer.h:267-269`. -/
def World.destroy (w : World) (i : Nat) : Except Fault World := do
  let c ← w.get i
  let w1 ← w.release i c.start c.cap
  return { w1 with conts := w1.conts.erase i }

/-- `operator[]` and an assignment.  `/repo/include/bm/bm_sim/bytecontainer.h:179-182`. -/
def World.set (w : World) (i n : Nat) (x : UInt8) : Except Fault World := do
  let c ← w.get i
  if n < c.size then w.put (c.start + n) [x] else .error .abort

/-- `resize`.  `/repo/include/bm/bm_sim/bytecontainer.h:240-248`. -/
def World.resize (w : World) (i n : Nat) (x : UInt8) (e : Env) : Except Fault World := do
  let c ← w.get i
  if n ≤ c.size then w.setSize i n else w.insert i c.size (.raw (List.replicate (n - c.size) x)) e

/-- The loop of `apply_mask`, from position `k`, for the `n` positions left.
`/repo/include/bm/bm_sim/bytecontainer.h:254-255`. -/
def World.maskLoop (w : World) (a b : Nat) : Nat → Nat → Except Fault World
  | _, 0 => .ok w
  | k, n + 1 =>
    if w.valid (b + k) 1 then do
      (← w.put (a + k) [w.mem (a + k) &&& w.mem (b + k)]).maskLoop a b (k + 1) n
    else .error .ub

/-- `apply_mask`.  `/repo/include/bm/bm_sim/bytecontainer.h:252-256`. -/
def World.mask (w : World) (i j : Nat) : Except Fault World := do
  let c ← w.get i
  let d ← w.get j
  if c.size = d.size then w.maskLoop c.start d.start 0 c.size else .error .abort

/-- One operation.  `/repo/include/bm/bm_sim/bytecontainer.h:45-256`. -/
def World.step (w : World) (o : Op) (e : Env) : Except Fault World :=
  match o with
  | .new i k => w.new i k e
  | .destroy i => w.destroy i
  | .assign i j => w.assign i (.cont j) e
  | .insert i pos s => w.insert i pos s e
  | .append i s => do
    let c ← w.get i
    w.insert i c.size s e
  | .push i x => do
    let c ← w.get i
    w.insert i c.size (.raw [x]) e
  | .set i n x => w.set i n x
  | .clear i => w.setSize i 0
  | .reserve i n => w.reserve i n e
  | .resize i n x => w.resize i n x e
  | .mask i j => w.mask i j

/-- Operations one after the other. -/
def World.run (w : World) : List (Op × Env) → Except Fault World
  | [] => .ok w
  | (o, e) :: l => do (← w.step o e).run l

/-- The bytes of a container, read from memory.  `/repo/include/bm/bm_sim/bytecontainer.h:108-223`. -/
def World.bytes (w : World) (i : Nat) : Option Bytes :=
  (w.conts.find? i).map fun c => (List.range c.size).map fun k => w.mem (c.start + k)

/-! ## A client of the arena

Any user of an arena, for instance the locks of an action (`/repo/include/bm/bm_sim/stateful.h:178-185`). -/

/-- The arena, the blocks the client holds, the blocks of `operator new` which are in use. -/
structure Client where
  a : Arena
  held : List (Nat × Nat) := []
  heap : List (Nat × Nat) := []

/-- A request of the client; `q`: the address `operator new` returns if it is called. -/
inductive Req | get (n q : Nat) | give (p n : Nat)
  deriving DecidableEq

/-- A request.  `operator new` returns storage which overlaps neither its other blocks nor the object (`buf_` and
`ptr_`, 8 bytes); to give back what one does not hold is undefined.
`/repo/include/bm/bm_sim/short_alloc.h:69-103`. -/
def Client.step (s : Client) : Req → Except Fault Client
  | .get n q =>
    match s.a.allocate n with
    | none => .error .abort
    | some (some (p, a)) => .ok { s with a := a, held := (p, n) :: s.held }
    | some none =>
      if s.heap.all (fun b => apart q (max n 1) b.1 (max b.2 1)) && apart q (max n 1) s.a.base (s.a.N + 8) then
        .ok { s with heap := (q, n) :: s.heap, held := (q, n) :: s.held }
      else .error .env
  | .give p n =>
    if (p, n) ∈ s.held then
      match s.a.deallocate p n with
      | none => .error .abort
      | some (some a) => .ok { s with a := a, held := s.held.erase (p, n) }
      | some none =>
        if p ∈ s.heap.map Prod.fst then
          .ok { s with heap := s.heap.filter fun b => b.1 ≠ p, held := s.held.erase (p, n) }
        else .error .ub
    else .error .ub

end Bm.ByteCont
