import Verif.Model.Pre
import Verif.Spec.McRt
import Verif.Model.LookupStructures

/-!
# Multicast requests of the Thrift servers, of the PD library and of the command line tool

Transcribes `/repo/src/bm_runtime/SimplePreLAG_server.cpp` and `/repo/src/bm_runtime/SimplePre_server.cpp`
on top of the engine model `Verif/Model/Pre.lean`, the functions of `/repo/pdfixed/src/pd_pre.cpp`
and the multicast commands of `/repo/tools/runtime_CLI.py`.  The messages (`Req`, `Reply`) are
those of `Verif/Spec/McRt.lean`; the types on the wire are those of
`/repo/thrift_src/simple_pre_lag.thrift:17-24`.

An exception of the handler that the interface does not declare makes the generated processor send
an application exception: reply `unexpected`.  `none` of an engine function is such an exception
(`std::unordered_map::at`); by `C19_crash_iff` there is no other way to get `none`.  Logging is left
out.
-/

namespace Bm.McRt

open Bm.Pre Bm.Spec.McRt

/-- `int32_t` converted to `unsigned int`.  `/repo/src/bm_runtime/SimplePreLAG_server.cpp:35-36`. -/
def toU32 (x : Int32) : Nat := x.toBitVec.toNat

/-- `int32_t` converted to `size_t` or `uintptr_t` (sign extension).
`/repo/src/bm_runtime/SimplePreLAG_server.cpp:35,47-48`, `/repo/include/bm/bm_sim/simple_pre.h:47-49`. -/
def toU64 (x : Int32) : Nat := (x.toBitVec.signExtend 64).toNat

/-- `uintptr_t` converted to `int32_t`.  `/repo/src/bm_runtime/SimplePreLAG_server.cpp:42,68`. -/
def ofU64 (n : Nat) : Int32 := Int32.ofBitVec (BitVec.ofNat 32 n)

/-- `int16_t` converted to `uint16_t`.  `/repo/src/bm_runtime/SimplePreLAG_server.cpp:115-119`. -/
def toU16 (x : Int16) : Nat := x.toBitVec.toNat

/-- The loop of the constructor of `std::bitset` from a string (libstdc++ `_M_copy_from_ptr`): the
digit `i` places before the end of the part copied goes to bit `i`; any other character throws
`std::invalid_argument`.  `/repo/include/bm/bm_sim/pre.h:35-36`. -/
def copyFrom : List Char → PortSet → Option PortSet
  | [], v => some v
  | c :: cs, v =>
    if c = '0' then copyFrom cs v
    else if c = '1' then copyFrom cs (v ||| BitVec.twoPow 512 cs.length)
    else none

/-- `PortMap(str)`.  At most 512 characters are used, and they are the **first** ones of the string.
`/repo/include/bm/bm_sim/pre.h:35-36`, `/repo/include/bm/bm_sim/simple_pre.h:80-84`. -/
def setOf (s : List Char) : Option PortSet := copyFrom (s.take 512) 0

/-- The value of `McReturnCode`, cast to `McOperationErrorCode`.
`/repo/include/bm/bm_sim/simple_pre.h:52-59`, `/repo/thrift_src/simple_pre_lag.thrift:26-32`. -/
def codeNum : Code → Nat
  | .success => 0
  | .tableFull => 1
  | .invalidMgid => 2
  | .invalidMgrpHandle => 3
  | .invalidL1Handle => 4
  | .error => 5

/-- `if (error_code != SUCCESS) throw imo; return …`.
`/repo/src/bm_runtime/SimplePreLAG_server.cpp:37-42`. -/
def reply (c : Code) (ok : Reply) : Reply := if c = .success then ok else .fail (codeNum c)

/-- The handlers, after the engine of the context has been found.
`/repo/src/bm_runtime/SimplePreLAG_server.cpp:32-126`, `/repo/src/bm_runtime/SimplePre_server.cpp:32-112`
(requests without LAG map).  `mc_mgrp_create` writes the group number to the handle
(`/repo/src/bm_sim/simple_pre.cpp:36`).  `packet` is `replicate`
(`/repo/src/bm_sim/simple_pre_lag.cpp:135-196`). -/
def serve (p : State) : Req → Option (Reply × State)
  | .mgrpCreate g =>
    let r := mgrpCreate p (toU32 g)
    some (reply r.1 (.num (ofU64 (toU32 g))), r.2)
  | .mgrpDestroy h =>
    let r := mgrpDestroy p (toU64 h)
    some (reply r.1 .unit, r.2)
  | .nodeCreate rid ports none => do
    let pm ← setOf ports
    let r ← nodeCreate p (toU32 rid) pm
    return (reply r.1 (.num (ofU64 r.2.1)), r.2.2)
  | .nodeCreate rid ports (some lags) => do
    let pm ← setOf ports
    let lm ← setOf lags
    let r ← nodeCreateLag p (toU32 rid) pm lm
    return (reply r.1 (.num (ofU64 r.2.1)), r.2.2)
  | .associate h n => do
    let r ← nodeAssociate p (toU64 h) (toU64 n)
    return (reply r.1 .unit, r.2)
  | .dissociate h n => do
    let r ← nodeDissociate p (toU64 h) (toU64 n)
    return (reply r.1 .unit, r.2)
  | .nodeDestroy n => do
    let r ← nodeDestroy p (toU64 n)
    return (reply r.1 .unit, r.2)
  | .nodeUpdate n ports none => do
    let pm ← setOf ports
    let r ← nodeUpdate p (toU64 n) pm
    return (reply r.1 .unit, r.2)
  | .nodeUpdate n ports (some lags) => do
    let pm ← setOf ports
    let lm ← setOf lags
    let r ← nodeUpdateLag p (toU64 n) pm lm
    return (reply r.1 .unit, r.2)
  | .setLag i ports => do
    let pm ← setOf ports
    let r := setLagMembership p (toU16 i) pm
    return (reply r.1 .unit, r.2)
  | .packet g => do
    let l ← replicateLag p g.toNat
    return (.copies l, p)

/-- A request: `pres.at(cxt_id)` throws when there is no such context.
`/repo/src/bm_runtime/SimplePreLAG_server.cpp:25-31,35`. -/
def call (s : List State) (c : Call) : Reply × List State :=
  match s[toU64 c.cxt]? with
  | none => (.unexpected, s)
  | some p =>
    match serve p c.req with
    | none => (.unexpected, s)
    | some (r, p') => (r, s.set (toU64 c.cxt) p')

/-- A sequence of requests, with the replies.  `/repo/src/bm_runtime/SimplePreLAG_server.cpp:32-126`. -/
def run (s : List State) : List Call → List (Call × Reply) × List State
  | [] => ([], s)
  | c :: cs =>
    let (r, s1) := call s c
    let (t, s2) := run s1 cs
    ((c, r) :: t, s2)

/-! ## Dump -/

/-- The JSON document of `mc_get_entries`: groups with their nodes, nodes with replication id and
second-level handle, second-level entries with ports and LAGs, LAGs with ports.
`/repo/src/bm_sim/simple_pre.cpp:176-227`, `/repo/src/bm_sim/simple_pre_lag.cpp:97-125`. -/
structure Entries where
  mgrps : List (Nat × List Nat)
  l1 : List (Nat × Nat × Nat)
  l2 : List (Nat × List Nat × List Nat)
  lags : Option (List (Nat × List Nat))
deriving DecidableEq

/-- `Json::UInt(x)`.  `/repo/src/bm_sim/simple_pre.cpp:180`. -/
def uint (n : Nat) : Nat := n % 2 ^ 32

/-- The loop over the positions of a set.  `/repo/src/bm_sim/simple_pre.cpp:211-213`. -/
def positions (v : PortSet) : List Nat := (List.range 512).filter fun i => v.getLsbD i

/-- `mc_get_entries` (`lag`: of the class with link aggregation).
`/repo/src/bm_sim/simple_pre.cpp:176-241`, `/repo/src/bm_sim/simple_pre_lag.cpp:97-125`. -/
def getEntries (lag : Bool) (s : State) : Entries where
  mgrps := s.mgids.l.map fun p => (uint p.1, p.2.l1List.map uint)
  l1 := s.l1s.l.map fun p => (uint p.1, uint p.2.rid, uint p.2.l2Hdl)
  l2 := s.l2s.l.map fun p => (uint p.1, positions p.2.portMap, positions p.2.lagMap)
  lags := if lag then some (s.lags.l.map fun p => (uint p.1, positions p.2.portMap)) else none

/-- `d[k] = v` for each element in turn, then `d[k]`: the last value given for the key.
`/repo/tools/runtime_CLI.py:1867-1872`. -/
def dictGet {α : Type} (l : List (Nat × α)) (k : Nat) : Option α :=
  (l.reverse).lookup k

/-- A line of the dump: node, replication id, ports, LAGs.  `/repo/tools/runtime_CLI.py:1880-1886`. -/
abbrev Line := Nat × Nat × List Nat × List Nat

/-- The loop over the nodes of a group; `none`: `KeyError`.  `/repo/tools/runtime_CLI.py:1880-1886`. -/
def dumpNodes (e : Entries) : List Nat → Option (List Line)
  | [] => some []
  | h :: hs => do
    let (rid, h2) ← dictGet e.l1 h
    let (ports, lags) ← dictGet e.l2 h2
    let ls ← dumpNodes e hs
    return (h, rid, ports, lags) :: ls

/-- The loop over the groups.  `/repo/tools/runtime_CLI.py:1876-1886`. -/
def dumpGroups (e : Entries) : List (Nat × List Nat) → Option (List (Nat × List Line))
  | [] => some []
  | (g, hs) :: gs => do
    let ls ← dumpNodes e hs
    let rest ← dumpGroups e gs
    return (g, ls) :: rest

/-- The variable `ports` after the loop over the groups: the ports of the last line printed (`none`:
never assigned).  `/repo/tools/runtime_CLI.py:1883`. -/
def lastPorts (gs : List (Nat × List Line)) : Option (List Nat) :=
  ((gs.flatMap Prod.snd).getLast?).map fun l => l.2.2.1

/-- The LAG part: every LAG is printed with the variable `ports` left over from the loop above;
`none`: `UnboundLocalError`.  `/repo/tools/runtime_CLI.py:1888-1896`. -/
def dumpLags (ports : Option (List Nat)) : List (Nat × List Nat) → Option (List (Nat × List Nat))
  | [] => some []
  | (i, _) :: ls => do
    let p ← ports
    let rest ← dumpLags ports ls
    return (i, p) :: rest

/-- `do_mc_dump`: the groups and the LAGs printed.  `/repo/tools/runtime_CLI.py:1855-1898`. -/
def dump (e : Entries) : Option (List (Nat × List Line) × Option (List (Nat × List Nat))) := do
  let gs ← dumpGroups e e.mgrps
  match e.lags with
  | none => return (gs, none)
  | some ls =>
    let l ← dumpLags (lastPorts gs) ls
    return (gs, some l)

/-! ## Command line tool -/

/-- The loop over the sorted ports; `none`: `UIn_Error`.  `last` is `last_port_num`, `acc` is
`port_map_str`.  `/repo/tools/runtime_CLI.py:1735-1741`. -/
def mapStr : List Int → Int → List Char → Option (List Char)
  | [], _, acc => some acc
  | p :: ps, last, acc =>
    if p = last - 1 then none
    else mapStr ps (p + 1) (acc ++ (List.replicate (p - last).toNat '0' ++ ['1']))

/-- `ports_to_port_map_str`, after the numbers have been read.
`/repo/tools/runtime_CLI.py:1721-1742`. -/
def portMapStr (ports : List Int) : Option (List Char) :=
  if ports.any (· < 0) then none
  else (mapStr (ports.mergeSort (· ≤ ·)) 0 []).map List.reverse

/-- Words of a command: the separator, a number, anything else.
`/repo/tools/runtime_CLI.py:1728-1731,1747`. -/
inductive Tok
  | bar
  | num (n : Int)
  | junk
deriving DecidableEq

/-- `int(port_num_str)` for each word.  `/repo/tools/runtime_CLI.py:1725-1734`. -/
def readInts : List Tok → Option (List Int)
  | [] => some []
  | .num n :: ts => (readInts ts).map (n :: ·)
  | _ :: _ => none

/-- `parse_ports_and_lags` for an engine with link aggregation, `args[1:]`.
`/repo/tools/runtime_CLI.py:1744-1757`. -/
def parsePortsLags (args : List Tok) : Option (List Char × List Char) := do
  let ports := args.takeWhile (· ≠ .bar)
  let ps ← (readInts ports).bind portMapStr
  let lags := args.drop (ports.length + 1)
  let ls ← (readInts lags).bind portMapStr
  return (ps, ls)

/-- `do_mc_node_create` for an engine with link aggregation: the request sent.
`/repo/tools/runtime_CLI.py:1759-1781`. -/
def cliNodeCreate (rid : Int32) (args : List Tok) : Option Call :=
  (parsePortsLags args).map fun x => ⟨0, .nodeCreate rid x.1 (some x.2)⟩

/-! ## PD library -/

/-- `convert_map(input, 512)`; `none`: the array is too short.
`/repo/pdfixed/src/pd_pre.cpp:31-41`, `/repo/pdfixed/include/bm/pdfixed/pd_pre.h:23-24`. -/
def convertLoop (input : List UInt8) : Nat → List Char → Option (List Char)
  | 0, out => some out
  | k + 1, out => do
    let i := 512 - (k + 1)
    let byte ← input[i / 8]?
    convertLoop input k
      (if byte &&& (1 <<< (UInt8.ofNat (i % 8))) ≠ 0 then out.set (512 - 1 - i) '1' else out)

/-- `convert_map`.  `/repo/pdfixed/src/pd_pre.cpp:31-41`. -/
def convertMap (input : List UInt8) : Option (List Char) :=
  convertLoop input 512 (List.replicate 512 '0')

/-- The request that a PD call sends (outer `none`: undefined behaviour, inner `none`: nothing is
sent).  `/repo/pdfixed/src/pd_pre.cpp:65-164`. -/
def pdReq : Pd → Option (Option Req)
  | .mgrpCreate g => some (some (.mgrpCreate (Int32.ofBitVec (g.toBitVec.zeroExtend 32))))
  | .mgrpDestroy h => some (some (.mgrpDestroy (Int32.ofBitVec h.toBitVec)))
  | .nodeCreate rid ports lags => do
    let p ← convertMap ports
    let l ← convertMap lags
    return some (.nodeCreate (Int32.ofBitVec (rid.toBitVec.zeroExtend 32)) p (some l))
  | .associate h n => some (some (.associate (Int32.ofBitVec h.toBitVec) (Int32.ofBitVec n.toBitVec)))
  | .dissociate _ _ => some none
  | .nodeDestroy n => some (some (.nodeDestroy (Int32.ofBitVec n.toBitVec)))
  | .nodeUpdate n ports lags => do
    let p ← convertMap ports
    let l ← convertMap lags
    return some (.nodeUpdate (Int32.ofBitVec n.toBitVec) p (some l))
  | .setLag i ports => do
    let p ← convertMap ports
    return some (.setLag (Int16.ofBitVec i.toBitVec) p)

/-- What the caller of a PD function sees: a status, and the handle written; or a C++ exception
leaving the `extern "C"` function.  `/repo/pdfixed/src/pd_pre.cpp:65-164`. -/
inductive PdOut
  | status (s : Nat) (handle : Option UInt32)
  | exception
deriving DecidableEq

/-- What the Thrift client function makes of a reply.  `/repo/pdfixed/src/pd_pre.cpp:72,84,98`. -/
def pdOut : Reply → PdOut
  | .unit => .status 0 none
  | .num h => .status 0 (some (UInt32.ofBitVec h.toBitVec))
  | _ => .exception

/-- A PD call on a connected device; every call but `dissociate` first checks the device number.
`/repo/pdfixed/src/pd_pre.cpp:65-164`, `/repo/pdfixed/include/bm/pdfixed/pd_common.h:29`. -/
def pdCall (s : List State) (dev : Int) (c : Pd) : Option (PdOut × List State) := do
  match c with
  | .dissociate _ _ => return (.status 0 none, s)
  | _ =>
    if dev < 0 ∨ dev ≥ 256 then return (.status 1 none, s)
    match ← pdReq c with
    | none => return (.status 0 none, s)
    | some r =>
      let (rep, s') := call s ⟨0, r⟩
      return (pdOut rep, s')

end Bm.McRt
