import Verif.Model.Phv
import Verif.Model.ParseVSet

/-!
# Model of `Parser` and `Deparser`

Transcribes `/repo/src/bm_sim/parser.cpp` and `/repo/src/bm_sim/deparser.cpp`.

* The memory behind the pointer to the packet is `mem`; `size` is `Packet::get_data_size()`.  Reading
  outside `mem` is undefined behaviour.
* Expressions are functions of the packet header vector giving the value after `get<int>()` (length of
  a variable-length field), `get<size_t>()` (advance) or `get<ErrorCode::type_t>()`; `none` is a failed
  assertion.  `Model/Expr.lean` has the evaluation of expressions.
* Operations that do not look at the packet (set from a field, a constant or an expression, method
  calls) are functions on the packet header vector.
* `rz` is `Field::ret_zero_on_invalid_hdr_read`.
* Outer `none`: undefined behaviour, failed assertion or uncaught exception.
* Events, logs, the debugger and the locks of registers are omitted.
-/

namespace Bm.Parse

open Bm.Extract

/-- Errors raised by the operations.  `/repo/include/bm/bm_sim/parser_error.h`,
`/repo/src/bm_sim/parser.cpp:87,231,255,261,264,334,376,407,464`. -/
inductive Err
  | packetTooShort
  | headerTooShort
  | stackOutOfBounds
  | invalidArgument
  | arch (code : Int)
  deriving Repr, DecidableEq

/-- The packet during parsing. -/
structure Pkt where
  mem : Bytes
  size : Nat
  deriving Repr, DecidableEq

/-- The state of the parser: the header vector and `bytes_parsed`.  `trace` has the headers extracted
so far; it is not in the code and has no influence. -/
structure St where
  phv : Phv
  pos : Nat
  trace : List Nat := []
  deriving Repr, DecidableEq

/-- `pkt->get_data_size() - *bytes_parsed`, of type `size_t`. -/
def left (size pos : Nat) : Nat := if pos ≤ size then size - pos else 2 ^ 64 - (pos - size)

/-- `ParserLookAhead`.  `/repo/include/bm/bm_sim/parser.h`, `/repo/src/bm_sim/parser.cpp:32-36`. -/
structure LookAhead where
  byteOffset : Nat
  bitOffset : Nat
  bitwidth : Nat
  nbytes : Nat
  deriving Repr, DecidableEq

/-- `ParserLookAhead::make`.  `/repo/src/bm_sim/parser.cpp:32-36`. -/
def LookAhead.make (offset bitwidth : Nat) : LookAhead :=
  ⟨offset / 8, offset % 8, bitwidth, (bitwidth + 7) / 8⟩

/-- `ParserLookAhead::peek`: the bytes appended.  `/repo/src/bm_sim/parser.cpp:38-44`. -/
def LookAhead.peek (l : LookAhead) (data : Bytes) : Option Bytes :=
  genericExtract (data.drop l.byteOffset) l.bitOffset l.bitwidth

/-- The operations of a parse state.  `/repo/src/bm_sim/parser.cpp:46-125,273-518`. -/
inductive Op
  /-- `ParserOpExtract`; the expression is the length expression of the header type, if it has one -/
  | extract (h : Nat) (len : Phv → Option Int)
  /-- `ParserOpExtractVL` -/
  | extractVL (h : Nat) (len : Phv → Option Int) (max : Nat)
  /-- `ParserOpExtractStack`, with the length expression and `max_header_bytes > 0` for
  `add_extract_to_stack_VL` -/
  | extractStack (s : Nat) (len : Phv → Option Int) (max : Nat)
  /-- `ParserOpExtractUnionStack` -/
  | extractUnionStack (s i : Nat) (len : Phv → Option Int) (max : Nat)
  /-- `ParserOpSet<ParserLookAhead>` -/
  | setLookahead (h f : Nat) (l : LookAhead)
  /-- `ParserOpShift` -/
  | shift (n : Nat)
  /-- `ParserOpAdvance`; `none` for a negative value, which fails an assertion -/
  | advance (bits : Phv → Option Nat)
  /-- `ParserOpVerify` -/
  | verify (cond : Phv → Option Bool) (err : Phv → Option Int)
  /-- `ParserOpSet` with a field, constant or expression as source, and `ParserOpMethodCall` -/
  | phvOp (f : Phv → Option Phv)

/-- The result of an operation: the new state, and an error if one was raised. -/
abbrev Res := St × Option Err

/-- `Header::extract` for any header: the length expression of a variable-length header is evaluated
when the fields in front of the variable-length field are extracted.
`/repo/src/bm_sim/headers.cpp:211-260`. -/
def extractHdr (p : Phv) (h : Nat) (len : Phv → Option Int) (data : Bytes) : Option Phv := do
  let hd ← p.headers[h]?
  match hd.vlOffset with
  | none => p.extract h data 0
  | some k =>
    let fs ← Header.extractFields none 0 (hd.fields.take k) data 0
    let n ← len { p with headers := p.headers.set h { hd with fields := fs ++ hd.fields.drop k } }
    p.extract h data n

/-- `hdr.get_nbytes_packet()`. -/
def nbytes (p : Phv) (h : Nat) : Option Nat := do return (← p.headers[h]?).nbytesPacket

/-- `extract_fixed`.  `/repo/src/bm_sim/parser.cpp:227-241`. -/
def extractFixed (pkt : Pkt) (st : St) (h : Nat) (len : Phv → Option Int) : Option Res := do
  if left pkt.size st.pos < (← nbytes st.phv h) then return (st, some .packetTooShort)
  else
    let phv ← extractHdr st.phv h len (pkt.mem.drop st.pos)
    return (⟨phv, st.pos + (← nbytes phv h), st.trace ++ [h]⟩, none)

/-- Conversion of an `int` to `size_t`; `none` if the sum overflowed `int`.
`/repo/src/bm_sim/parser.cpp:258-259`. -/
def toSize (n : Int) : Option Nat :=
  if n < -2 ^ 31 ∨ 2 ^ 31 ≤ n then none
  else some (if n < 0 then (2 ^ 64 + n).toNat else n.toNat)

/-- `extract_VL`.  A negative length that passes the checks makes `Field::extract_VL` throw an exception
that nothing catches; this is decided before any field is extracted.
`/repo/src/bm_sim/parser.cpp:243-269`, `/repo/src/bm_sim/fields.cpp:76-91`. -/
def extractVar (pkt : Pkt) (st : St) (h : Nat) (len : Phv → Option Int) (max : Nat) : Option Res := do
  let nbits ← len st.phv
  if nbits % 8 ≠ 0 then return (st, some .invalidArgument)
  else
    let toExtract ← toSize ((← nbytes st.phv h) + nbits / 8)
    if left pkt.size st.pos < toExtract then return (st, some .packetTooShort)
    else if max ≠ 0 ∧ max < toExtract then return (st, some .headerTooShort)
    else if nbits < 0 then none
    else
      let phv ← st.phv.extract h (pkt.mem.drop st.pos) nbits
      return (⟨phv, st.pos + (← nbytes phv h), st.trace ++ [h]⟩, none)

/-- The choice between the two in the operations on stacks.
`/repo/src/bm_sim/parser.cpp:338-343,382-387`. -/
def extractNext (pkt : Pkt) (st : St) (h : Nat) (len : Phv → Option Int) (max : Nat) : Option Res :=
  if max = 0 then extractFixed pkt st h len else extractVar pkt st h len max

/-- `stack.push_back()` after a successful extraction.  `/repo/src/bm_sim/parser.cpp:344`. -/
def pushStack (s : Nat) (r : Res) : Option Res :=
  match r with
  | (st, some e) => some (st, some e)
  | (st, none) => do
    let (_, stk, phv) ← (← st.phv.hstacks[s]?).pushBack Phv.headerOps st.phv
    return ({ st with phv := { phv with hstacks := phv.hstacks.set s stk } }, none)

/-- The same for a stack of unions.  `/repo/src/bm_sim/parser.cpp:388`. -/
def pushUnionStack (s : Nat) (r : Res) : Option Res :=
  match r with
  | (st, some e) => some (st, some e)
  | (st, none) => do
    let (_, stk, phv) ← (← st.phv.unionStacks[s]?).pushBack Phv.unionOps st.phv
    return ({ st with phv := { phv with unionStacks := phv.unionStacks.set s stk } }, none)

/-- Changing one field of a header. -/
def updField (p : Phv) (h f : Nat) (g : Header → Field → Option Field) : Option Phv :=
  p.updHeader h fun hd => do
    return { hd with fields := hd.fields.set f (← g hd (← hd.fields[f]?)) }

/-- `ParserOpSet<ParserLookAhead>`.  `/repo/src/bm_sim/parser.cpp:80-111`. -/
def opSetLookahead (rz : Bool) (pkt : Pkt) (st : St) (h f : Nat) (l : LookAhead) : Option Res := do
  if left pkt.size st.pos < l.nbytes then return (st, some .packetTooShort)
  else
    let data := pkt.mem.drop st.pos
    let phv ← updField st.phv h f fun hd fd => do
      if l.bitwidth = fd.nbits then fd.extract (data.drop l.byteOffset) l.bitOffset
      else fd.set (rz && !hd.isValid && !fd.hidden) (Data.importBytes (← l.peek data))
    return ({ st with phv }, none)

/-- `ParserOpShift`.  `/repo/src/bm_sim/parser.cpp:427-440`. -/
def opShift (pkt : Pkt) (st : St) (n : Nat) : Res :=
  if left pkt.size st.pos < n then (st, some .packetTooShort)
  else ({ st with pos := st.pos + n }, none)

/-- `ParserOpAdvance`.  `/repo/src/bm_sim/parser.cpp:453-518`. -/
def opAdvance (pkt : Pkt) (st : St) (bits : Nat) : Res :=
  if bits % 8 ≠ 0 then (st, some .invalidArgument)
  else if left pkt.size st.pos < bits / 8 then (st, some .packetTooShort)
  else ({ st with pos := st.pos + bits / 8 }, none)

/-- `ParserOpVerify`.  `/repo/src/bm_sim/parser.cpp:392-410`. -/
def opVerify (st : St) (cond : Phv → Option Bool) (err : Phv → Option Int) : Option Res := do
  if ← cond st.phv then return (st, none) else return (st, some (.arch (← err st.phv)))

/-- One operation.  `/repo/src/bm_sim/parser.cpp:46-125,273-518`. -/
def Op.exec (rz : Bool) (pkt : Pkt) (st : St) : Op → Option Res
  | .extract h len => extractFixed pkt st h len
  | .extractVL h len max => extractVar pkt st h len max
  | .extractStack s len max => do
    let stk ← st.phv.hstacks[s]?
    if stk.next = stk.elements.length then return (st, some .stackOutOfBounds)
    else pushStack s (← extractNext pkt st (← stk.elements[stk.next]?) len max)
  | .extractUnionStack s i len max => do
    let stk ← st.phv.unionStacks[s]?
    if stk.next = stk.elements.length then return (st, some .stackOutOfBounds)
    else
      let u ← st.phv.unions[(← stk.elements[stk.next]?)]?
      pushUnionStack s (← extractNext pkt st (← u.members[i]?) len max)
  | .setLookahead h f l => opSetLookahead rz pkt st h f l
  | .shift n => some (opShift pkt st n)
  | .advance bits => do return opAdvance pkt st (← bits st.phv)
  | .verify cond err => opVerify st cond err
  | .phvOp f => do return ({ st with phv := ← f st.phv }, none)

/-- The loop over the operations of a state; an exception leaves it.
`/repo/src/bm_sim/parser.cpp:1049-1050`. -/
def execOps (rz : Bool) (pkt : Pkt) (st : St) : List Op → Option Res
  | [] => some (st, none)
  | op :: ops => do
    match ← op.exec rz pkt st with
    | (st, none) => execOps rz pkt st ops
    | (st, some e) => return (st, some e)

/-- The parts of a select key.  `/repo/src/bm_sim/parser.cpp:127-192`. -/
inductive KeyEntry
  | field (h f : Nat)
  | stackField (s f : Nat)
  | unionStackField (s i f : Nat)
  | lookahead (l : LookAhead)
  deriving Repr, DecidableEq

/-- The bytes of a field. -/
def fieldBytes (p : Phv) (h f : Nat) : Option Bytes := do
  return (← (← p.headers[h]?).fields[f]?).bytes

/-- `get_last`, with its assertion.  `/repo/src/bm_sim/stacks.cpp:231-236`. -/
def last (st : Stack) : Option Nat := if st.next = 0 then none else st.elements[st.next - 1]?

/-- One step of `ParseSwitchKeyBuilder::operator()`; `data` is behind the bytes parsed.
`/repo/src/bm_sim/parser.cpp:202-222`. -/
def KeyEntry.bytes (p : Phv) (data : Bytes) : KeyEntry → Option Bytes
  | .field h f => fieldBytes p h f
  | .stackField s f => do fieldBytes p (← last (← p.hstacks[s]?)) f
  | .unionStackField s i f => do
    let u ← p.unions[(← last (← p.unionStacks[s]?))]?
    fieldBytes p (← u.members[i]?) f
  | .lookahead l => l.peek data

/-- `ParseSwitchKeyBuilder::operator()`.  `/repo/src/bm_sim/parser.cpp:199-223`. -/
def buildKey (p : Phv) (data : Bytes) (es : List KeyEntry) : Option Bytes := do
  return (← es.mapM (·.bytes p data)).flatten

/-- The cases of a select with the next state.  A case on a value set has its shadow.
`/repo/src/bm_sim/parser.cpp:720-865`. -/
inductive Case
  | const (key : Bytes) (next : Option Nat)
  | masked (key mask : Bytes) (next : Option Nat)
  | vset (shadow : VSet.Shadow) (next : Option Nat)
  deriving Repr

/-- `match`.  `/repo/src/bm_sim/parser.cpp:736-744,775-784,802-809`. -/
def Case.matches (key : Bytes) : Case → Option Bool
  | .const k _ => some (VSet.caseMatch k key)
  | .masked k m _ => do VSet.caseMaskMatch (← VSet.maskKey k m) m key
  | .vset s _ => s.contains key

/-- The next state of a case. -/
def Case.next : Case → Option Nat
  | .const _ n => n
  | .masked _ _ n => n
  | .vset _ n => n

/-- `ParseState`.  `/repo/include/bm/bm_sim/parser.h:223-313`. -/
structure PState where
  ops : List Op
  /-- the key and the cases if `has_switch` -/
  sel : Option (List KeyEntry × List Case)
  default : Option Nat

/-- Trying the cases in order.  `/repo/src/bm_sim/parser.cpp:1069-1074`. -/
def choose (key : Bytes) (default : Option Nat) : List Case → Option (Option Nat)
  | [] => some default
  | c :: cs => do if ← c.matches key then return c.next else choose key default cs

/-- `find_next_state`.  `/repo/src/bm_sim/parser.cpp:1039-1075`. -/
def PState.next (rz : Bool) (pkt : Pkt) (st : St) (s : PState) : Option (Res × Option Nat) := do
  match ← execOps rz pkt st s.ops with
  | (st, some e) => return ((st, some e), none)
  | (st, none) =>
    match s.sel with
    | none => return ((st, none), s.default)
    | some (es, cs) => do
      let key ← buildKey st.phv (pkt.mem.drop st.pos) es
      return ((st, none), ← choose key s.default cs)

/-- The loop of `Parser::parse`, for at most `fuel` states.  Inner `none`: not finished yet.
`/repo/src/bm_sim/parser.cpp:1137-1152`. -/
def loop (rz : Bool) (states : List PState) (pkt : Pkt) : Nat → Option Nat → St → Option (Option Res)
  | _, none, st => some (some (st, none))
  | 0, some _, _ => some none
  | fuel + 1, some s, st => do
    match ← (← states[s]?).next rz pkt st with
    | ((st, some e), _) => return some (st, some e)
    | ((st, none), next) => loop rz states pkt fuel next st

/-- `Parser::parse`, without the checksums: the result of the loop and the payload left in the buffer,
`data` being the buffer and `trunc` the truncated length.  `/repo/src/bm_sim/parser.cpp:1122-1154`,
`/repo/include/bm/bm_sim/packet.h:168-170,212-215`, `/repo/include/bm/bm_sim/packet_buffer.h:88-93`. -/
def parse (rz : Bool) (states : List PState) (init : Option Nat) (data : Bytes) (trunc : Nat) (fuel : Nat)
    (phv : Phv) : Option (Option (Res × Bytes)) := do
  match ← loop rz states ⟨data, min data.length trunc⟩ fuel init ⟨phv, 0, []⟩ with
  | none => return none
  | some (st, e) => if st.pos ≤ data.length then return some ((st, e), data.drop st.pos) else none

/-- `Deparser::get_headers_size`.  `/repo/src/bm_sim/deparser.cpp:44-54`. -/
def headersSize (p : Phv) : List Nat → Option Nat
  | [] => some 0
  | h :: hs => do
    let hd ← p.headers[h]?
    let n ← headersSize p hs
    return (if hd.isValid then hd.nbytesPacket + n else n)

/-- The loop of `Deparser::deparse`: `data` is the part of the buffer not written yet.
`/repo/src/bm_sim/deparser.cpp:78-86`. -/
def emit (p : Phv) : List Nat → Bytes → Option Bytes
  | [], data => some data
  | h :: hs, data => do
    let hd ← p.headers[h]?
    if hd.isValid then
      let data ← hd.deparse data
      return data.take hd.nbytesPacket ++ (← emit p hs (data.drop hd.nbytesPacket))
    else emit p hs data

/-- `Deparser::deparse`, without checksums and method calls.  `room` is the content of the free part of
the buffer in front of the payload (`PacketBuffer::push`).  `/repo/src/bm_sim/deparser.cpp:56-92`,
`/repo/include/bm/bm_sim/packet_buffer.h:81-86`. -/
def deparse (p : Phv) (order : List Nat) (room payload : Bytes) : Option Bytes := do
  let n ← headersSize p order
  if n ≤ room.length then emit p order (room.drop (room.length - n) ++ payload) else none

end Bm.Parse
