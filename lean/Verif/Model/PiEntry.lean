import Verif.Model.KeyBuilder
import Verif.Model.Data

/-!
# Table entries as PI sees them

Conversion of match keys, priorities, action data and indirect handles between PI (flat byte
strings) and bmv2 (`/repo/PI/src/pi_tables_imp.cpp`, `/repo/PI/src/action_helpers.cpp`,
`/repo/PI/src/common.h`).  `none`: a failed assertion, or a read past the end of the string that PI
passes.

`retrieve_uint32` and `emit_uint32` belong to the PI library, which is not part of the repository;
they are modelled as a copy of four bytes in the byte order of the machine, taken little endian.
-/

namespace Bm.PiEntry

/-- `pi_p4info_match_type_t`, as far as `build_key` distinguishes it.
`/repo/PI/src/pi_tables_imp.cpp:75-116`. -/
inductive PiType | valid | exact | lpm | ternary | optional | range
deriving DecidableEq, Repr

/-- What `build_key` uses of `pi_p4info_match_field_info_t`.
`/repo/PI/src/pi_tables_imp.cpp:71-73`. -/
structure PiF where
  type : PiType
  bitwidth : Nat
deriving DecidableEq, Repr

/-- `nbytes`.  `/repo/PI/src/pi_tables_imp.cpp:73`. -/
def PiF.nbytes (f : PiF) : Nat := (f.bitwidth + 7) / 8

/-- `BM_MAX_PRIORITY`: `pi_priority_t` is a 32-bit unsigned type, so this is the largest `int`.
`/repo/PI/src/pi_tables_imp.cpp:39-43`. -/
def bmMaxPriority : Nat := 2 ^ 31 - 1

/-- `PriorityInverter::pi_to_bm`.  `/repo/PI/src/pi_tables_imp.cpp:48-51`. -/
def piToBm (p : Nat) : Option Int :=
  if p ≤ bmMaxPriority then some ((bmMaxPriority - p : Nat) : Int) else none

/-- `PriorityInverter::bm_to_pi`.  `/repo/PI/src/pi_tables_imp.cpp:52-55`. -/
def bmToPi (p : Int) : Option Nat :=
  if 0 ≤ p ∧ p ≤ bmMaxPriority then some (bmMaxPriority - p.toNat) else none

/-- `std::string(mk_data, n); mk_data += n;`: the next `n` bytes and the rest.
`/repo/PI/src/pi_tables_imp.cpp:83-85`. -/
def take (n : Nat) (l : Bytes) : Option (Bytes × Bytes) :=
  if n ≤ l.length then some (l.take n, l.drop n) else none

/-- `retrieve_uint32` (see the header of this file): four bytes, least significant first.
`/repo/PI/src/pi_tables_imp.cpp:90-91`. -/
def getU32 (l : Bytes) : Nat :=
  match l with
  | [a, b, c, d] => a.toNat + 256 * b.toNat + 65536 * c.toNat + 16777216 * d.toNat
  | _ => 0

/-- `emit_uint32` (see the header of this file).  `/repo/PI/src/pi_tables_imp.cpp:449`. -/
def putU32 (n : Nat) : Bytes :=
  [UInt8.ofNat n, UInt8.ofNat (n / 256), UInt8.ofNat (n / 65536), UInt8.ofNat (n / 16777216)]

/-- The conversion of a `uint32_t` to the `int` of `MatchKeyParam::prefix_length`.
`/repo/PI/src/pi_tables_imp.cpp:90-92`, `/repo/include/bm/bm_sim/match_units.h:60-62`. -/
def u32ToInt (n : Nat) : Int := if n < 2 ^ 31 then n else (n : Int) - 2 ^ 32

/-- The parameter of a validity match.  `/repo/PI/src/pi_tables_imp.cpp:76-81`. -/
def validParam (b : UInt8) : MParam :=
  { type := .valid, key := if b ≠ 0 then [1] else [0] }

/-- The parameter of one field and the bytes left.  `/repo/PI/src/pi_tables_imp.cpp:75-116`. -/
def buildOne (f : PiF) (l : Bytes) : Option (MParam × Bytes) :=
  match f.type with
  | .valid => do
    let (a, r) ← take 1 l
    some (validParam (a.headD 0), r)
  | .exact => do
    let (a, r) ← take f.nbytes l
    some ({ type := .exact, key := a }, r)
  | .lpm => do
    let (a, r) ← take f.nbytes l
    let (b, r') ← take 4 r
    some ({ type := .lpm, key := a, prefixLength := u32ToInt (getU32 b) }, r')
  | .ternary | .optional => do
    let (a, r) ← take f.nbytes l
    let (b, r') ← take f.nbytes r
    some ({ type := .ternary, key := a, mask := b }, r')
  | .range => do
    let (a, r) ← take f.nbytes l
    let (b, r') ← take f.nbytes r
    some ({ type := .range, key := a, mask := b }, r')

/-- The match kinds that set the priority.  `/repo/PI/src/pi_tables_imp.cpp:96-113`. -/
def PiF.usesPriority (f : PiF) : Bool :=
  f.type = .ternary || f.type = .optional || f.type = .range

/-- The priority after one field.  `/repo/PI/src/pi_tables_imp.cpp:103, 113`. -/
def stepPriority (f : PiF) (prio : Nat) (acc : Int) : Option Int :=
  if f.usesPriority then piToBm prio else some acc

/-- The loop of `build_key`.  `/repo/PI/src/pi_tables_imp.cpp:70-117`. -/
def buildLoop (prio : Nat) : List PiF → Bytes → Int → Option (List MParam × Int)
  | [], _, acc => some ([], acc)
  | f :: fs, l, acc => do
    let (p, r) ← buildOne f l
    let acc' ← stepPriority f prio acc
    let (ps, pr) ← buildLoop prio fs r acc'
    some (p :: ps, pr)

/-- `build_key`.  `/repo/PI/src/pi_tables_imp.cpp:58-120`. -/
def buildKey (fs : List PiF) (l : Bytes) (prio : Nat) : Option (List MParam × Int) :=
  buildLoop prio fs l 0

/-- One step of `emit_match_key`.  `/repo/PI/src/pi_tables_imp.cpp:443-459`. -/
def emitOne (p : MParam) : Bytes :=
  match p.type with
  | .exact => p.key
  | .lpm => p.key ++ putU32 (p.prefixLength % 2 ^ 32).toNat
  | .ternary => p.key ++ p.mask
  | .range => p.key ++ p.mask
  | .valid => [if p.key = [1] then 1 else 0]

/-- `emit_match_key`.  `/repo/PI/src/pi_tables_imp.cpp:440-461`. -/
def emitMatchKey (ps : List MParam) : Bytes := ps.flatMap emitOne

/-- The priority that `emit_entries` writes.  `/repo/PI/src/pi_tables_imp.cpp:490-492`. -/
def emitPriority (p : Int) : Option Nat := if p = -1 then some 0 else bmToPi p

/-- Outcome of the part of an entry operation that precedes the call into bmv2: refused with
`PI_STATUS_UNSUPPORTED_ENTRY_PRIORITY`, or called with the parameters and the priority.
`/repo/PI/src/pi_tables_imp.cpp:759-776`. -/
inductive Req
  | unsupportedPriority
  | call (ps : List MParam) (prio : Int)
deriving DecidableEq, Repr

/-- The beginning of `_pi_table_entry_add`; `_pi_table_entry_delete_wkey` and
`_pi_table_entry_modify_wkey` begin in the same way.
`/repo/PI/src/pi_tables_imp.cpp:771-774, 938-950, 985-1002`. -/
def addReq (fs : List PiF) (l : Bytes) (prio : Nat) : Option Req :=
  if prio > bmMaxPriority then some .unsupportedPriority
  else (buildKey fs l prio).map fun (ps, p) => .call ps p

/-- The beginning of `_pi_table_entries_fetch_wkey`: no check of the priority.
`/repo/PI/src/pi_tables_imp.cpp:1037-1050, 712-726`. -/
def fetchReq (fs : List PiF) (l : Bytes) (prio : Nat) : Option Req :=
  (buildKey fs l prio).map fun (ps, p) => .call ps p

/-- `mpz_sizeinbase(v, 2)`: number of binary digits of the magnitude, 1 for 0.
`/repo/include/bm/bm_sim/bignum.h:36-38`. -/
def sizeInBase2 (v : Int) : Nat := if v = 0 then 1 else Nat.log2 v.natAbs + 1

/-- `Data::get_string`.  `/repo/include/bm/bm_sim/data.h:203-210`. -/
def getString (v : Int) : Option Bytes :=
  let size := (sizeInBase2 v + 7) / 8
  Data.exportBytes (List.replicate size 0) size v

/-- `build_action_data` for parameters of the given bit widths.
`/repo/PI/src/action_helpers.cpp:25-47`. -/
def buildActionData : List Nat → Bytes → Option (List Int)
  | [], _ => some []
  | bw :: bws, l => do
    let (a, r) ← take ((bw + 7) / 8) l
    let ds ← buildActionData bws r
    some (Data.importBytes a :: ds)

/-- One parameter of `dump_action_data`.  `/repo/PI/src/action_helpers.cpp:60-68`. -/
def dumpOne (bw : Nat) (v : Int) : Option Bytes := do
  let s ← getString v
  if s.length ≤ (bw + 7) / 8 then
    some (List.replicate ((bw + 7) / 8 - s.length) 0 ++ s)
  else none

/-- `dump_action_data`.  `/repo/PI/src/action_helpers.cpp:49-71`. -/
def dumpActionData : List Nat → List Int → Option Bytes
  | [], [] => some []
  | bw :: bws, v :: vs => do
    let a ← dumpOne bw v
    let r ← dumpActionData bws vs
    some (a ++ r)
  | _, _ => none

/-- `IndirectHMgr::make_grp_h`.  `/repo/PI/src/common.h:50-52, 60-61`. -/
def makeGrpH (h : UInt64) : UInt64 := h ||| 0x8000000000000000

/-- `IndirectHMgr::is_grp_h`.  `/repo/PI/src/common.h:54`. -/
def isGrpH (h : UInt64) : Bool := (h &&& 0x8000000000000000) != 0

/-- `IndirectHMgr::clear_grp_h`.  `/repo/PI/src/common.h:56-58`. -/
def clearGrpH (h : UInt64) : UInt64 := h &&& ~~~ 0x8000000000000000

/-- `MatchTableIndirectWS::Entry`, the member and the group it names; the constructor leaves the
other one at the largest `uint32_t`.  `/repo/src/bm_sim/match_tables.cpp:1102-1118`. -/
structure WsEntry where
  mbr : UInt32
  grp : UInt32
deriving DecidableEq, Repr

/-- What an indirect entry refers to when it is added through PI.
`/repo/PI/src/pi_tables_imp.cpp:188-212`. -/
inductive Target
  | member (h : UInt32)
  | group (h : UInt32)
deriving DecidableEq, Repr

/-- The choice made by `add_indirect_entry` from the handle that PI passes (the conversions to
`mbr_hdl_t`/`grp_hdl_t` keep the low 32 bits).  `/repo/PI/src/pi_tables_imp.cpp:188-212`. -/
def targetOf (h : UInt64) : Target :=
  if isGrpH h then .group (clearGrpH h).toUInt32 else .member h.toUInt32

/-- The entry as `get_entry` of `MatchTableIndirectWS` returns it.
`/repo/src/bm_sim/match_tables.cpp:1102-1118`. -/
def wsEntry : Target → WsEntry
  | .member h => ⟨h, 0xffffffff⟩
  | .group h => ⟨0xffffffff, h⟩

/-- The handle emitted for an entry with selector.
`/repo/PI/src/pi_tables_imp.cpp:421-438`. -/
def emitWs (e : WsEntry) : UInt64 :=
  if e.mbr < e.grp then e.mbr.toUInt64 else makeGrpH e.grp.toUInt64

end Bm.PiEntry
