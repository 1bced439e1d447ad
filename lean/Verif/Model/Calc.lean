import Verif.Model.Header
import Verif.Model.Cksum

/-!
# Model of `BufBuilder` and of the checksum engine

`/repo/src/bm_sim/calculations.cpp:30-117`, `/repo/src/bm_sim/checksums.cpp:79-191`.  The headers are
the vector of the PHV.  Sizes are not bounded (the code has `int`).
-/

namespace Bm.Calc

open Bm.Extract

/-- `std::variant<field_t, constant_t, header_t>`.  `/repo/include/bm/bm_sim/calculations.h:234-246`. -/
inductive Entry where
  | field (hdr off : Nat)
  | const (v : Bytes) (nbits : Nat)
  | header (hdr : Nat)
  deriving DecidableEq, Repr

/-- `BufBuilder::Deparse`, with the buffer it refers to.  `/repo/src/bm_sim/calculations.cpp:98-100`. -/
structure St where
  buf : Bytes
  nbits : Nat
  deriving DecidableEq, Repr

/-- `resize(n, '\x00')` of a container. -/
def resize (l : Bytes) (n : Nat) : Bytes := l.take n ++ List.replicate (n - l.length) 0

/-- `extend`; second component: the index of the byte pointed to.
`/repo/src/bm_sim/calculations.cpp:57-63`. -/
def extend (s : St) (more : Nat) : St × Nat :=
  (⟨resize s.buf ((s.nbits + more + 7) / 8), s.nbits + more⟩, s.nbits / 8)

/-- Running a function that writes through a pointer to byte `p` of the buffer. -/
def writeAt (s : St) (p : Nat) (f : Bytes → Option Bytes) : Option St := do
  return { s with buf := s.buf.take p ++ (← f (s.buf.drop p)) }

/-- The three overloads of `operator()`.  `&c.v[0]` needs a non-empty constant.
`/repo/src/bm_sim/calculations.cpp:65-90`. -/
def step (hdrs : List Header) (s : St) : Entry → Option St
  | .field h i => do
    let hd ← hdrs[h]?
    if !hd.isValid then return s
    else
      let f ← hd.fields[i]?
      let offset := s.nbits % 8
      let (s, p) := extend s f.nbits
      writeAt s p (fun d => f.deparse d offset)
  | .const v n =>
    if v = [] then none
    else
      let offset := s.nbits % 8
      let (s, p) := extend s n
      writeAt s p (fun d => genericDeparse v n d offset)
  | .header h =>
    if s.nbits % 8 ≠ 0 then none
    else do
      let hd ← hdrs[h]?
      if hd.isValid then
        let (s, p) := extend s (hd.nbytesPacket * 8)
        writeAt s p hd.deparse
      else return s

/-- `BufBuilder::operator()`; the buffer is cleared first.  `payload`: what is left of the packet, if
it is to be included.  `/repo/src/bm_sim/calculations.cpp:103-117`. -/
def build (entries : List Entry) (hdrs : List Header) (payload : Option Bytes) : Option Bytes := do
  let s ← entries.foldlM (step hdrs) ⟨[], 0⟩
  return s.buf ++ payload.getD []

/-- A checksum: target field, condition and what to compute.  The condition is some function of the
headers.  `/repo/include/bm/bm_sim/checksums.h`. -/
structure Checksum where
  hdr : Nat
  off : Nat
  cond : Option (List Header → Option Bool)

/-- `is_checksum_condition_met`.  `/repo/src/bm_sim/checksums.cpp:124-127`. -/
def Checksum.condMet (c : Checksum) (hdrs : List Header) : Option Bool :=
  match c.cond with
  | none => some true
  | some f => f hdrs

/-- `Checksum::update`, around `update_`.  `/repo/src/bm_sim/checksums.cpp:84-96`. -/
def Checksum.update (c : Checksum) (update_ : List Header → Option (List Header)) (hdrs : List Header) :
    Option (List Header) := do
  if !(← c.condMet hdrs) then return hdrs else update_ hdrs

/-- `Checksum::verify`, around `verify_`.  `/repo/src/bm_sim/checksums.cpp:98-117,129-133`. -/
def Checksum.verify (c : Checksum) (verify_ : List Header → Option Bool) (hdrs : List Header) :
    Option Bool := do
  let hd ← hdrs[c.hdr]?
  if !hd.isValid then return true
  else if !(← c.condMet hdrs) then return true
  else verify_ hdrs

/-- Replacing a field. -/
def setField (hdrs : List Header) (h i : Nat) (f : Field) : List Header :=
  match hdrs[h]? with
  | none => hdrs
  | some hd => hdrs.set h { hd with fields := hd.fields.set i f }

/-- A calculation: what it covers and the hash function (`uint64_t`).
`/repo/include/bm/bm_sim/calculations.h:255-277`. -/
structure Calculation where
  entries : List Entry
  withPayload : Bool
  hash : Bytes → Option (BitVec 64)

/-- `Calculation_::output`.  `/repo/include/bm/bm_sim/calculations.h:263-267`. -/
def Calculation.output (c : Calculation) (hdrs : List Header) (payload : Bytes) : Option (BitVec 64) := do
  c.hash (← build c.entries hdrs (if c.withPayload then some payload else none))

/-- `CalcBasedChecksum::update_`; `rz` is `Field::ret_zero_on_invalid_hdr_read`.
`/repo/src/bm_sim/checksums.cpp:141-146`. -/
def calcUpdate (rz : Bool) (c : Checksum) (fn : Calculation) (payload : Bytes) (hdrs : List Header) :
    Option (List Header) := do
  let cksum ← fn.output hdrs payload
  let hd ← hdrs[c.hdr]?
  let f ← hd.fields[c.off]?
  let f ← f.set (rz && !hd.isValid && !f.hidden) cksum.toNat
  return setField hdrs c.hdr c.off f

/-- `get<uint64_t>()`; values that do not fit are left open.  `/repo/include/bm/bm_sim/data.h:175-181`. -/
def getU64 (rz : Bool) (hd : Header) (f : Field) : Option Nat :=
  let v := f.getValue (rz && !hd.isValid && !f.hidden)
  if f.arith = true ∧ 0 ≤ v ∧ v < 2 ^ 64 then some v.toNat else none

/-- `CalcBasedChecksum::verify_`.  `/repo/src/bm_sim/checksums.cpp:148-156`. -/
def calcVerify (rz : Bool) (c : Checksum) (fn : Calculation) (payload : Bytes) (hdrs : List Header) :
    Option Bool := do
  let cksum ← fn.output hdrs payload
  let hd ← hdrs[c.hdr]?
  let f ← hd.fields[c.off]?
  return cksum.toNat == (← getU64 rz hd f)

/-- The computation shared by the two functions of `IPv4Checksum`; `buffer` is the uninitialised array
of 60 bytes.  `/repo/src/bm_sim/checksums.cpp:166-173,180-187`. -/
def ipv4Cksum (buffer : Bytes) (hd : Header) : Option Bytes := do
  let buffer ← hd.deparse buffer
  let buffer ← setByte buffer 10 0
  let buffer ← setByte buffer 11 0
  if hd.nbytesPacket ≤ buffer.length then return Cksum.cksum16Bytes (buffer.take hd.nbytesPacket)
  else none

/-- `IPv4Checksum::update_`.  `/repo/src/bm_sim/checksums.cpp:165-176`. -/
def ipv4Update (buffer : Bytes) (c : Checksum) (hdrs : List Header) : Option (List Header) := do
  let hd ← hdrs[c.hdr]?
  if !hd.isValid then return hdrs
  else
    let f ← hd.fields[c.off]?
    let f ← f.setBytes (← ipv4Cksum buffer hd)
    return setField hdrs c.hdr c.off f

/-- `IPv4Checksum::verify_`; `memcmp` looks at two bytes of the field.
`/repo/src/bm_sim/checksums.cpp:178-191`. -/
def ipv4Verify (buffer : Bytes) (c : Checksum) (hdrs : List Header) : Option Bool := do
  let hd ← hdrs[c.hdr]?
  if !hd.isValid then return true
  else
    let f ← hd.fields[c.off]?
    let k ← ipv4Cksum buffer hd
    if 2 ≤ f.bytes.length then return k == f.bytes.take 2 else none

end Bm.Calc
