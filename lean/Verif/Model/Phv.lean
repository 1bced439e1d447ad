import Verif.Model.Header
import Verif.Model.Stack

/-!
# Model of `HeaderUnion`, `PHV` and the assignment primitives

`/repo/include/bm/bm_sim/header_unions.h`, `/repo/src/bm_sim/phv.cpp`,
`/repo/src/bm_sim/headers.cpp:174-186,317-333`, `/repo/src/bm_sim/core/primitives.cpp:48-97`.
Headers, unions and stacks are numbered as in the vectors of `PHV`.  `rz` is
`Field::ret_zero_on_invalid_hdr_read`.
-/

namespace Bm

/-- `HeaderUnion`, data members.  `/repo/include/bm/bm_sim/header_unions.h:109-111`. -/
structure HUnion where
  members : List Nat
  valid : Bool := false
  idx : Nat := 0
deriving DecidableEq, Repr

/-- `PHV`: headers with their union membership (union, index), unions and the two kinds of stacks.
`/repo/include/bm/bm_sim/phv.h`, `/repo/include/bm/bm_sim/headers.h:315-323`. -/
structure Phv where
  headers : List Header
  memb : List (Option (Nat × Nat))
  unions : List HUnion
  hstacks : List Stack
  unionStacks : List Stack
deriving DecidableEq, Repr

namespace Phv

/-- `push_back_header_union`: creates the union and makes its headers members of it (replacing an
earlier membership).  `/repo/src/bm_sim/phv.cpp:138-154`. -/
def pushUnion (p : Phv) (ids : List Nat) : Phv :=
  let u := p.unions.length
  { p with
    unions := p.unions ++ [{ members := ids }]
    memb := ids.zipIdx.foldl (fun m x => m.set x.1 (some (u, x.2))) p.memb }

/-- Applying a function to one header. -/
def updHeader (p : Phv) (h : Nat) (f : Header → Option Header) : Option Phv := do
  return { p with headers := p.headers.set h (← f (← p.headers[h]?)) }

/-- `HeaderUnion::make_header_invalid`.  `/repo/include/bm/bm_sim/header_unions.h:58-60`. -/
def makeHeaderInvalid (p : Phv) (u i : Nat) : Option Phv := do
  let un ← p.unions[u]?
  let un' := if un.valid ∧ un.idx = i then { un with valid := false } else un
  return { p with unions := p.unions.set u un' }

/-- `Header::mark_invalid`.  `/repo/src/bm_sim/headers.cpp:181-186,325-328`. -/
def markInvalid (p : Phv) (h : Nat) : Option Phv := do
  let p ← p.updHeader h Header.markInvalid
  match ← p.memb[h]? with
  | none => return p
  | some (u, i) => p.makeHeaderInvalid u i

/-- Invalidating the header that is valid so far, if it is another one.
`/repo/include/bm/bm_sim/header_unions.h:51-52`. -/
def invalidateOther (p : Phv) (un : HUnion) (i : Nat) : Option Phv :=
  if un.valid ∧ un.idx ≠ i then do p.markInvalid (← un.members[un.idx]?) else some p

/-- `HeaderUnion::make_header_valid`.  `/repo/include/bm/bm_sim/header_unions.h:50-56`. -/
def makeHeaderValid (p : Phv) (u i : Nat) : Option Phv := do
  let p ← p.invalidateOther (← p.unions[u]?) i
  let un ← p.unions[u]?
  return { p with unions := p.unions.set u { un with idx := i, valid := true } }

/-- `Header::mark_valid`.  `/repo/src/bm_sim/headers.cpp:174-179,320-323`. -/
def markValid (p : Phv) (h : Nat) : Option Phv := do
  let p ← p.updHeader h Header.markValid
  match ← p.memb[h]? with
  | none => return p
  | some (u, i) => p.makeHeaderValid u i

/-- `Header::extract`: the fields, then `mark_valid`.  (`Header.extract` sets the flag and the hidden
field as well; doing it again has no effect.)  `/repo/src/bm_sim/headers.cpp:211-245`. -/
def extract (p : Phv) (h : Nat) (data : Bytes) (n : Int) : Option Phv := do
  (← p.updHeader h (·.extract data n)).markValid h

/-- `Header::swap_values`.  `/repo/src/bm_sim/headers.cpp:291-300`. -/
def swapHeaders (p : Phv) (a b : Nat) : Option Phv := do
  let x ← p.headers[a]?
  let y ← p.headers[b]?
  return { p with headers := (p.headers.set a (x.swapped y)).set b (y.swapped x) }

/-- The loop of `HeaderUnion::swap_values`. -/
def swapAll (p : Phv) : List Nat → List Nat → Option Phv
  | a :: as, b :: bs => do swapAll (← p.swapHeaders a b) as bs
  | _, _ => some p

/-- `HeaderUnion::swap_values`.  `/repo/include/bm/bm_sim/header_unions.h:63-71`. -/
def swapUnions (p : Phv) (u v : Nat) : Option Phv := do
  let x ← p.unions[u]?
  let y ← p.unions[v]?
  if x.members.length = y.members.length then
    let unions := (p.unions.set u { x with valid := y.valid, idx := y.idx }).set v
      { y with valid := x.valid, idx := x.idx }
    swapAll { p with unions } x.members y.members
  else none

/-- `get_valid_header`.  `/repo/include/bm/bm_sim/header_unions.h:75-77`. -/
def validHeader (p : Phv) (u : Nat) : Option (Option Nat) := do
  let un ← p.unions[u]?
  if un.valid then return some (← un.members[un.idx]?) else return none

/-- Operations of stacks of headers. -/
def headerOps : ElemOps Phv := ⟨swapHeaders, markValid, markInvalid⟩

/-- Operations of stacks of unions: marking does nothing.
`/repo/include/bm/bm_sim/header_unions.h:95-97`. -/
def unionOps : ElemOps Phv := ⟨swapUnions, fun p _ => some p, fun p _ => some p⟩

/-- `Field::assign_VL`, without the length of the header.  `/repo/src/bm_sim/fields.cpp:103-112`. -/
def assignVL (f src : Field) (rz dstInv srcInv : Bool) : Option Field :=
  if f.vl then
    let f := { f with nbits := src.nbits, nbytes := src.nbytes,
                      bytes := (f.bytes ++ List.replicate src.nbytes 0).take src.nbytes,
                      mask := src.mask, max := src.max, min := src.min }
    f.set (rz && dstInv) (src.getValue (rz && srcInv))
  else none

/-- One iteration of `assign_header`.  `/repo/src/bm_sim/core/primitives.cpp:57-60`. -/
def assignField (f src : Field) (rz dstInv srcInv : Bool) : Option Field :=
  if f.vl then assignVL f src rz (dstInv && !f.hidden) (srcInv && !src.hidden)
  else f.set (rz && dstInv && !f.hidden) (src.getValue (rz && srcInv && !src.hidden))

/-- The loop of `assign_header`; `assign_VL` recomputes the length of the header.
`/repo/src/bm_sim/core/primitives.cpp:56-61`, `/repo/src/bm_sim/headers.cpp:162-172`. -/
def assignFields (rz : Bool) (dst src : Header) : Option Header := do
  let fields ← (dst.fields.zip src.fields).mapM fun (f, g) =>
    assignField f g rz (!dst.isValid) (!src.isValid)
  if dst.fields.any (·.vl) then
    let bits := ((Header.visible fields).map (·.nbits)).sum
    if bits % 8 = 0 then return { dst with fields, nbytesPacket := bits / 8 } else none
  else return { dst with fields }

/-- `assign_header`.  `/repo/src/bm_sim/core/primitives.cpp:48-62`. -/
def assignHeader (rz : Bool) (p : Phv) (d s : Nat) : Option Phv := do
  if !(← p.headers[s]?).isValid then p.markInvalid d
  else do
    let p ← p.markValid d
    let src ← p.headers[s]?
    if (← p.headers[d]?).typeId = src.typeId then p.updHeader d (assignFields rz · src) else none

/-- `assign_header` for corresponding headers. -/
def assignHeaders (rz : Bool) (p : Phv) : List Nat → List Nat → Option Phv
  | d :: ds, s :: ss => do assignHeaders rz (← assignHeader rz p d s) ds ss
  | _, _ => some p

/-- `assign_union`.  `/repo/src/bm_sim/core/primitives.cpp:64-70`. -/
def assignUnion (rz : Bool) (p : Phv) (d s : Nat) : Option Phv := do
  let ds := (← p.unions[d]?).members
  let ss := (← p.unions[s]?).members
  if ds.length = ss.length then assignHeaders rz p ds ss else none

/-- `assign_union` for corresponding unions. -/
def assignUnions (rz : Bool) (p : Phv) : List Nat → List Nat → Option Phv
  | d :: ds, s :: ss => do assignUnions rz (← assignUnion rz p d s) ds ss
  | _, _ => some p

/-- `assign_header_stack`.  `/repo/src/bm_sim/core/primitives.cpp:72-78`. -/
def assignHeaderStack (rz : Bool) (p : Phv) (d s : Nat) : Option Phv := do
  let dst ← p.hstacks[d]?
  let src ← p.hstacks[s]?
  if dst.elements.length = src.elements.length then
    assignHeaders rz { p with hstacks := p.hstacks.set d { dst with next := src.next } }
      dst.elements src.elements
  else none

/-- `assign_union_stack`.  `/repo/src/bm_sim/core/primitives.cpp:80-87`. -/
def assignUnionStack (rz : Bool) (p : Phv) (d s : Nat) : Option Phv := do
  let dst ← p.unionStacks[d]?
  let src ← p.unionStacks[s]?
  if dst.elements.length = src.elements.length then
    assignUnions rz { p with unionStacks := p.unionStacks.set d { dst with next := src.next } }
      dst.elements src.elements
  else none

/-- `Field::reset_VL`.  `/repo/src/bm_sim/fields.cpp:116-126`. -/
def resetVL (f : Field) : Option Field :=
  if f.vl then
    some { f with nbits := 0, nbytes := 0, mask := 1, max := if f.isSigned then 1 else f.max,
                  min := if f.isSigned then 1 else f.min }
  else none

/-- `Header::reset_VL_header`, on a variable-length header.  `/repo/src/bm_sim/headers.cpp:194-203`. -/
def resetVLHeader (h : Header) (k : Nat) : Option Header := do
  let f ← h.fields[k]?
  return { h with nbytesPacket := h.nbytesPacket - f.nbytes, fields := h.fields.set k (← resetVL f) }

/-- One iteration of `PHV::reset`.  `/repo/src/bm_sim/phv.cpp:35-36`. -/
def resetOne (p : Phv) (h : Nat) : Option Phv := do
  let p ← p.markInvalid h
  match (← p.headers[h]?).vlOffset with
  | none => return p
  | some k => p.updHeader h (resetVLHeader · k)

/-- `PHV::reset`.  `/repo/src/bm_sim/phv.cpp:32-38`. -/
def reset (p : Phv) : Option Phv := (List.range p.headers.length).foldlM resetOne p

/-- `PHV::reset_header_stacks`.  `/repo/src/bm_sim/phv.cpp:40-46`. -/
def resetHeaderStacks (p : Phv) : Phv :=
  { p with hstacks := p.hstacks.map Stack.reset, unionStacks := p.unionStacks.map Stack.reset }

/-- `PHV::reset_headers` (`all`) and `PHV::reset_metadata`: resetting a header does not touch its
validity flag.  `/repo/src/bm_sim/phv.cpp:48-62`. -/
def resetHeaders (rz all : Bool) (p : Phv) : Option Phv := do
  return { p with headers := ← p.headers.mapM fun h =>
    if all || h.metadata then h.reset (rz && !h.isValid) else some h }

/-- One iteration of the first loop of `PHV::copy_headers`.  `/repo/src/bm_sim/phv.cpp:73-76`. -/
def copyHeader (rz : Bool) (h src : Header) : Header :=
  let h := { h with valid := src.valid, metadata := src.metadata }
  if h.valid || h.metadata then h.copyFields src (rz && !src.isValid) else h

/-- `PHV::copy_headers`, between vectors made by the same factory.
`/repo/src/bm_sim/phv.cpp:70-88`. -/
def copyHeaders (rz : Bool) (p src : Phv) : Phv :=
  { p with
    headers := List.zipWith (copyHeader rz) p.headers src.headers
    hstacks := List.zipWith (fun s t => { s with next := t.next }) p.hstacks src.hstacks
    unions := List.zipWith (fun x y => { x with valid := y.valid, idx := y.idx }) p.unions src.unions
    unionStacks := List.zipWith (fun s t => { s with next := t.next }) p.unionStacks src.unionStacks }

/-- Operations on a stack.  `/repo/include/bm/bm_sim/stacks.h:37-81`. -/
inductive SOp
  | popFront1 | popFront (n : Nat) | pushFront1 | pushFront (n : Nat) | popBack | pushBack

/-- An operation on a stack of either flavour (`p416`: `BM_WP4_16_STACKS` is defined).
`/repo/include/bm/bm_sim/stacks.h:182-189`. -/
def stackOp (p416 : Bool) (ops : ElemOps Phv) (st : Stack) (p : Phv) :
    SOp → Option (Nat × Stack × Phv)
  | .popFront1 => if p416 then st.popFrontP416_1 ops p else st.popFrontLegacy1 ops p
  | .popFront n => if p416 then st.popFrontP416 ops n p else st.popFrontLegacy ops n p
  | .pushFront1 => if p416 then st.pushFrontP416_1 ops p else st.pushFrontLegacy1 ops p
  | .pushFront n => if p416 then st.pushFrontP416 ops n p else st.pushFrontLegacy ops n p
  | .popBack => st.popBack ops p
  | .pushBack => st.pushBack ops p

/-- Everything that changes the validity of headers, apart from copies from another vector. -/
inductive Op
  | markValid (h : Nat)
  | markInvalid (h : Nat)
  | extract (h : Nat) (data : Bytes) (n : Int)
  | assignHeader (d s : Nat)
  | assignUnion (d s : Nat)
  | assignHeaderStack (d s : Nat)
  | assignUnionStack (d s : Nat)
  | headerStack (k : Nat) (o : SOp)
  | unionStack (k : Nat) (o : SOp)
  | reset
  | resetHeaderStacks
  | resetHeaders (all : Bool)

/-- One operation. -/
def exec (rz p416 : Bool) (p : Phv) : Op → Option Phv
  | .markValid h => p.markValid h
  | .markInvalid h => p.markInvalid h
  | .extract h data n => p.extract h data n
  | .assignHeader d s => assignHeader rz p d s
  | .assignUnion d s => assignUnion rz p d s
  | .assignHeaderStack d s => assignHeaderStack rz p d s
  | .assignUnionStack d s => assignUnionStack rz p d s
  | .headerStack k o => do
    let st ← p.hstacks[k]?
    let (_, st', p') ← stackOp p416 headerOps st p o
    return { p' with hstacks := p'.hstacks.set k st' }
  | .unionStack k o => do
    let st ← p.unionStacks[k]?
    let (_, st', p') ← stackOp p416 unionOps st p o
    return { p' with unionStacks := p'.unionStacks.set k st' }
  | .reset => p.reset
  | .resetHeaderStacks => some p.resetHeaderStacks
  | .resetHeaders all => resetHeaders rz all p

end Phv

end Bm
