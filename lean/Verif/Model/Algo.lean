import Verif.Model.Crc
import Verif.Model.Hash
import Verif.Model.Cksum
import Verif.Model.Save

/-!
# Algorithms of calculations, by name and with parameters set at run time

`/repo/src/bm_sim/crc_map.cpp`, `/repo/src/bm_sim/calculations.cpp:506-625`, `/repo/src/bm_sim/P4Objects.cpp:1306-1346,2483-2524`,
`/repo/src/bm_runtime/Standard_server.cpp:1136-1178`, `/repo/tools/runtime_CLI.py:827-849,2560-2610`.

Simplifications:
- The input of a calculation is given as bytes (how they are made: `Model/Calc`).
- `xxh64` is third-party code: a function `xx` of the input.  The two functions the targets register (`hash_ex`, `bmv2_hash`) are not
  modelled.
- Identifiers of calculations (`DupIdChecker`) are left out.
- The mutexes of the functors make every call atomic; a program which is exchanged while it runs is the subject of `Model/Swap`.
- `convert_to` of a number which does not fit: an exception or a value which depends on the library, one outcome `range`.
-/

namespace Bm.Algo

open Save (dataOfHex)

/-- A `std::string`. -/
abbrev Name := List Char

/-! ## Raw calculations -/

/-- A `RawCalculation<uint64_t, F>`: which `F`, and its state.
`/repo/include/bm/bm_sim/calculations.h:177-220`, `/repo/src/bm_sim/calculations.cpp:506-533`. -/
inductive Raw
  | xxh64 | crc16 | crc32 | crcCCITT | cksum16 | csum16 | identity | xor16 | xor32
  | toeplitz (key : List (BitVec 32))
  | roundRobin (idx : BitVec 64)
  | rrc (s : Hash.Rrc)
  | custom8 (o : Crc.Obj 8)
  | custom16 (o : Crc.Obj 16)
  | custom32 (o : Crc.Obj 32)
  | custom64 (o : Crc.Obj 64)

/-- `output`: the result as `uint64_t`, and the state after.  `none`: undefined behaviour or a failed assertion of the functor.
`/repo/include/bm/bm_sim/calculations.h:190-218`. -/
def Raw.output (xx : Bytes → BitVec 64) (c : Raw) (buf : Bytes) : Option (BitVec 64 × Raw) :=
  match c with
  | .xxh64 => some (xx buf, c)
  | .crc16 => do return ((← Crc.crc16 buf).setWidth 64, c)
  | .crc32 => do return ((← Crc.crc32 buf).setWidth 64, c)
  | .crcCCITT => do return ((← Crc.crcCCITT buf).setWidth 64, c)
  | .cksum16 => some (BitVec.ofNat 64 (Cksum.cksum16 buf), c)
  | .csum16 => some (BitVec.ofNat 64 (Cksum.cksum16 buf), c)
  | .identity => some (Hash.identity buf, c)
  | .xor16 => do return ((← Hash.xorHash 2 buf).setWidth 64, c)
  | .xor32 => do return ((← Hash.xorHash 4 buf).setWidth 64, c)
  | .toeplitz key => do return ((← Hash.toeplitz key buf).setWidth 64, c)
  | .roundRobin idx => some ((Hash.roundRobin idx).1, .roundRobin (Hash.roundRobin idx).2)
  | .rrc s => some ((s.call buf).1, .rrc (s.call buf).2)
  | .custom8 o => do return ((← Crc.custom o.config o.table buf).setWidth 64, c)
  | .custom16 o => do return ((← Crc.custom o.config o.table buf).setWidth 64, c)
  | .custom32 o => do return ((← Crc.custom o.config o.table buf).setWidth 64, c)
  | .custom64 o => do return ((← Crc.custom o.config o.table buf).setWidth 64, c)

/-- `clone`: a new object of the same type, with the state of its constructor.
`/repo/include/bm/bm_sim/calculations.h:195-198`. -/
def Raw.clone : Raw → Raw
  | .toeplitz _ => .toeplitz Hash.newKey
  | .roundRobin _ => .roundRobin 0
  | .rrc _ => .rrc {}
  | .custom8 _ => .custom8 (Crc.Obj.new Crc.init8)
  | .custom16 _ => .custom16 (Crc.Obj.new Crc.init16)
  | .custom32 _ => .custom32 (Crc.Obj.new Crc.init32)
  | .custom64 _ => .custom64 (Crc.Obj.new Crc.init64)
  | c => c

/-- `REGISTER_HASH`.  `/repo/src/bm_sim/calculations.cpp:510-533`, `/repo/include/bm/bm_sim/calculations.h:327-333`. -/
def registered : List (Name × Raw) := [
  ("xxh64".toList, .xxh64),
  ("crc16".toList, .crc16),
  ("crc32".toList, .crc32),
  ("crcCCITT".toList, .crcCCITT),
  ("cksum16".toList, .cksum16),
  ("csum16".toList, .csum16),
  ("toeplitz".toList, .toeplitz Hash.newKey),
  ("identity".toList, .identity),
  ("round_robin".toList, .roundRobin 0),
  ("round_robin_consistent".toList, .rrc {}),
  ("xor16".toList, .xor16),
  ("xor32".toList, .xor32),
  ("crc8_custom".toList, .custom8 (Crc.Obj.new Crc.init8)),
  ("crc16_custom".toList, .custom16 (Crc.Obj.new Crc.init16)),
  ("crc32_custom".toList, .custom32 (Crc.Obj.new Crc.init32)),
  ("crc64_custom".toList, .custom64 (Crc.Obj.new Crc.init64))]

/-- `CalculationsMap::get_copy` (`none`: null pointer).  `/repo/src/bm_sim/calculations.cpp:618-623`. -/
def getCopy (n : Name) : Option Raw := (registered.lookup n).map Raw.clone

/-! ## CRCs by name and by description -/

/-- A `crc_config_t<T>` for one of the four types.  `/repo/src/bm_sim/crc_map.cpp:49-58`. -/
inductive AnyConfig
  | w8 (c : Crc.Config 8) | w16 (c : Crc.Config 16) | w32 (c : Crc.Config 32) | w64 (c : Crc.Config 64)

/-- `CustomCrcMgr<T>::update_config`: `none` if the calculation has another type (`WRONG_TYPE_CALCULATION`; also for a null
pointer).  `/repo/src/bm_sim/calculations.cpp:558-567`. -/
def Raw.update : Option Raw → AnyConfig → Option Raw
  | some (.custom8 o), .w8 c => some (.custom8 (o.update c))
  | some (.custom16 o), .w16 c => some (.custom16 (o.update c))
  | some (.custom32 o), .w32 c => some (.custom32 (o.update c))
  | some (.custom64 o), .w64 c => some (.custom64 (o.update c))
  | _, _ => none

/-- `CustomCrcName`.  `/repo/src/bm_sim/crc_map.cpp:26-47`. -/
def AnyConfig.base : AnyConfig → Name
  | .w8 _ => "crc8_custom".toList
  | .w16 _ => "crc16_custom".toList
  | .w32 _ => "crc32_custom".toList
  | .w64 _ => "crc64_custom".toList

/-- `create_crc_factory_fn(config)()`: the result of `update_config` is not looked at.
`/repo/src/bm_sim/crc_map.cpp:49-58`. -/
def AnyConfig.make (c : AnyConfig) : Option Raw :=
  match Raw.update (getCopy c.base) c with
  | some r => some r
  | none => getCopy c.base

/-- `CrcMap()`.  `/repo/src/bm_sim/crc_map.cpp:65-150`. -/
def crcMap : List (Name × AnyConfig) := [
  ("crc_8".toList, .w8 ⟨0x07, 0x00, 0x00, false, false⟩),
  ("crc_8_darc".toList, .w8 ⟨0x39, 0x00, 0x00, true, true⟩),
  ("crc_8_i_code".toList, .w8 ⟨0x1d, 0xfd, 0x00, false, false⟩),
  ("crc_8_itu".toList, .w8 ⟨0x07, 0x00, 0x55, false, false⟩),
  ("crc_8_maxim".toList, .w8 ⟨0x31, 0x00, 0x00, true, true⟩),
  ("crc_8_rohc".toList, .w8 ⟨0x07, 0xff, 0x00, true, true⟩),
  ("crc_8_wcdma".toList, .w8 ⟨0x9b, 0x00, 0x00, true, true⟩),
  ("crc_16".toList, .w16 ⟨0x8005, 0x0000, 0x0000, true, true⟩),
  ("crc_16_buypass".toList, .w16 ⟨0x8005, 0x0000, 0x0000, false, false⟩),
  ("crc_16_dds_110".toList, .w16 ⟨0x8005, 0x800d, 0x0000, false, false⟩),
  ("crc_16_dect".toList, .w16 ⟨0x0589, 0x0000, 0x0001, false, false⟩),
  ("crc_16_dnp".toList, .w16 ⟨0x3d65, 0x0000, 0xffff, true, true⟩),
  ("crc_16_en_13757".toList, .w16 ⟨0x3d65, 0x0000, 0xffff, false, false⟩),
  ("crc_16_genibus".toList, .w16 ⟨0x1021, 0xffff, 0xffff, false, false⟩),
  ("crc_16_maxim".toList, .w16 ⟨0x8005, 0x0000, 0xffff, true, true⟩),
  ("crc_16_mcrf4xx".toList, .w16 ⟨0x1021, 0xffff, 0x0000, true, true⟩),
  ("crc_16_riello".toList, .w16 ⟨0x1021, 0xb2aa, 0x0000, true, true⟩),
  ("crc_16_t10_dif".toList, .w16 ⟨0x8bb7, 0x0000, 0x0000, false, false⟩),
  ("crc_16_teledisk".toList, .w16 ⟨0xa097, 0x0000, 0x0000, false, false⟩),
  ("crc_16_usb".toList, .w16 ⟨0x8005, 0xffff, 0xffff, true, true⟩),
  ("x_25".toList, .w16 ⟨0x1021, 0xffff, 0xffff, true, true⟩),
  ("xmodem".toList, .w16 ⟨0x1021, 0x0000, 0x0000, false, false⟩),
  ("modbus".toList, .w16 ⟨0x8005, 0xffff, 0x0000, true, true⟩),
  ("kermit".toList, .w16 ⟨0x1021, 0x0000, 0x0000, true, true⟩),
  ("crc_ccitt_false".toList, .w16 ⟨0x1021, 0xffff, 0x0000, false, false⟩),
  ("crc_aug_ccitt".toList, .w16 ⟨0x1021, 0x1d0f, 0x0000, false, false⟩),
  ("crc_32".toList, .w32 ⟨0x04c11db7, 0xffffffff, 0xffffffff, true, true⟩),
  ("crc_32_bzip2".toList, .w32 ⟨0x04c11db7, 0xffffffff, 0xffffffff, false, false⟩),
  ("crc_32c".toList, .w32 ⟨0x1edc6f41, 0xffffffff, 0xffffffff, true, true⟩),
  ("crc_32d".toList, .w32 ⟨0xa833982b, 0xffffffff, 0xffffffff, true, true⟩),
  ("crc_32_mpeg".toList, .w32 ⟨0x04c11db7, 0xffffffff, 0x00000000, false, false⟩),
  ("posix".toList, .w32 ⟨0x04c11db7, 0x00000000, 0xffffffff, false, false⟩),
  ("crc_32q".toList, .w32 ⟨0x814141ab, 0x00000000, 0x00000000, false, false⟩),
  ("jamcrc".toList, .w32 ⟨0x04c11db7, 0xffffffff, 0x00000000, true, true⟩),
  ("xfer".toList, .w32 ⟨0x000000af, 0x00000000, 0x00000000, false, false⟩),
  ("crc_64".toList, .w64 ⟨0x000000000000001b, 0x0000000000000000, 0x0000000000000000, true, true⟩),
  ("crc_64_we".toList, .w64 ⟨0x42f0e1eba9ea3693, 0xffffffffffffffff, 0xffffffffffffffff, false, false⟩),
  ("crc_64_jones".toList, .w64 ⟨0xad93d23594c935a9, 0xffffffffffffffff, 0x0000000000000000, true, true⟩)]

/-- `CrcMap::get_copy`.  `/repo/src/bm_sim/crc_map.cpp:158-163`. -/
def crcCopy (n : Name) : Option Raw := (crcMap.lookup n).bind AnyConfig.make

/-- The tokens `next_token` returns, one after the other (after the last one it returns the empty string).
`/repo/src/bm_sim/crc_map.cpp:198-205`. -/
def split : Name → List Name
  | [] => [[]]
  | c :: cs =>
    if c = '_' then [] :: split cs
    else match split cs with
      | t :: ts => (c :: t) :: ts
      | [] => [[c]]

/-- The variables of `get_copy_from_custom_str`; `rev` for both `data_reflected` and `remainder_reflected`, which are always
the same.  `/repo/src/bm_sim/crc_map.cpp:206-207`. -/
structure Params where
  poly : Name := []
  init : Name := []
  xout : Name := []
  rev : Bool := true
  deriving DecidableEq

/-- The loop over the tokens (`none`: null pointer).  `/repo/src/bm_sim/crc_map.cpp:208-233`. -/
def params (p : Params) : List Name → Option Params
  | [] => some p
  | [t] => if t = [] then some p else none
  | t :: v :: ts =>
    if t = [] then some p
    else if t = "poly".toList then if v = [] then none else params { p with poly := v } ts
    else if t = "init".toList then if v = [] then none else params { p with init := v } ts
    else if t = "not".toList then if v = "rev".toList then params { p with rev := false } ts else none
    else if t = "xout".toList then if v = [] then none else params { p with xout := v } ts
    else none

/-- `polynomial_order`.  `/repo/src/bm_sim/crc_map.cpp:166-173`. -/
def order : Name → Nat
  | '0' :: 'x' :: '1' :: ds => ds.length * 4
  | _ => 0

/-- What ends the loading of a program: a failed assertion, a number out of range, an exception. -/
inductive Bad | abort | range | unknown | duplicate
  deriving DecidableEq, Repr

/-- `hexstr_to_int<T>`.  `/repo/src/bm_sim/crc_map.cpp:175-180`, `/repo/include/bm/bm_sim/data.h:144-181`. -/
def hexToInt (w : Nat) (s : Name) : Except Bad (BitVec w) :=
  if s = [] then .ok 0
  else match dataOfHex s with
    | none => .error .abort
    | some v => if 0 ≤ v ∧ v < 2 ^ w then .ok (BitVec.ofNat w v.toNat) else .error .range

/-- The configuration in `make_crc_from_custom_params`.  `/repo/src/bm_sim/crc_map.cpp:182-191`. -/
def Params.config (w : Nat) (p : Params) : Except Bad (Crc.Config w) := do
  let poly ← hexToInt w (p.poly.drop 3)
  let init ← hexToInt w p.init
  let xout ← hexToInt w p.xout
  return ⟨poly, init, xout, p.rev, p.rev⟩

/-- `get_copy_from_custom_str` (`none`: null pointer).  `/repo/src/bm_sim/crc_map.cpp:195-257`. -/
def customCopy (s : Name) : Except Bad (Option Raw) :=
  match params {} (split s) with
  | none => .ok none
  | some p =>
    if p.poly = [] then .ok none
    else match order p.poly with
      | 8 => (p.config 8).map fun c => (AnyConfig.w8 c).make
      | 16 => (p.config 16).map fun c => (AnyConfig.w16 c).make
      | 32 => (p.config 32).map fun c => (AnyConfig.w32 c).make
      | 64 => (p.config 64).map fun c => (AnyConfig.w64 c).make
      | _ => .ok none

/-- `check_hash`.  `/repo/src/bm_sim/P4Objects.cpp:2483-2499`. -/
def checkHash (n : Name) : Except Bad Raw :=
  match getCopy n with
  | some r => .ok r
  | none =>
    match crcCopy n with
    | some r => .ok r
    | none =>
      match customCopy n with
      | .error e => .error e
      | .ok (some r) => .ok r
      | .ok none => .error .unknown

/-! ## Named calculations -/

/-- `calculations` of a context; a calculation may have a null pointer for its raw calculation. -/
abbrev Calcs := Name → Option (Option Raw)

/-- One entry of the map changes. -/
def Calcs.set (m : Calcs) (n : Name) (r : Option Raw) : Calcs := fun k => if k = n then some r else m k

/-- `init_calculations`: the names and algorithms of the program.  What `check_hash` returns is not used: the constructor of
`NamedCalculation` looks in `CalculationsMap` only.
`/repo/src/bm_sim/P4Objects.cpp:1306-1346,572-583,2878-2882`, `/repo/include/bm/bm_sim/calculations.h:314-319`. -/
def loadFrom (m : Calcs) : List (Name × Name) → Except Bad Calcs
  | [] => .ok m
  | (n, algo) :: l =>
    match checkHash algo with
    | .error e => .error e
    | .ok _ => if (m n).isSome then .error .duplicate else loadFrom (m.set n (getCopy algo)) l

/-- A context after loading. -/
def load (cfg : List (Name × Name)) : Except Bad Calcs := loadFrom (fun _ => none) cfg

/-- The contexts of a switch.  `/repo/include/bm/bm_sim/switch.h:92`. -/
abbrev Sys := List Calcs

/-- A request over Thrift, or a packet which needs a calculation (a primitive, or a checksum).  The numbers are the `i16` and `i32`
of the message.  `/repo/thrift_src/standard.thrift:201-227,708-724`. -/
inductive Req
  | compute (cxt : Nat) (n : Name) (buf : Bytes)
  | crc16 (cxt : Nat) (n : Name) (poly init xout : Int) (ri ro : Bool)
  | crc32 (cxt : Nat) (n : Name) (poly init xout : Int) (ri ro : Bool)
  | key (cxt : Nat) (n : Name) (key : Bytes)
  deriving DecidableEq

/-- The result of a calculation, or the answer to a request: done, an error code, another exception. -/
inductive Res | value (v : BitVec 64) | done | code (n : Nat) | exception
  deriving DecidableEq, Repr

/-- A named calculation, with `.at` of both maps.  `/repo/src/bm_sim/switch.cpp:509-529`,
`/repo/include/bm/bm_sim/P4Objects.h:219-221`. -/
def Sys.find (s : Sys) (cxt : Nat) (n : Name) : Option (Option Raw) := (s[cxt]?).bind fun m => m n

/-- A raw calculation changes. -/
def Sys.put (s : Sys) (cxt : Nat) (n : Name) (r : Option Raw) : Sys := s.modify cxt fun m => m.set n r

/-- `set_crc_custom_parameters` and the answer.  `/repo/src/bm_sim/context.cpp:705-714`,
`/repo/src/bm_runtime/Standard_server.cpp:1136-1166`. -/
def Sys.setCrc (s : Sys) (cxt : Nat) (n : Name) (c : AnyConfig) : Sys × Res :=
  match s.find cxt n with
  | none => (s, .exception)
  | some r =>
    match Raw.update r c with
    | none => (s, .code 2)
    | some r' => (s.put cxt n (some r'), .done)

/-- `set_toeplitz_key` and the answer.  `/repo/src/bm_sim/context.cpp:723-731`, `/repo/src/bm_sim/calculations.cpp:575-591`,
`/repo/src/bm_runtime/Standard_server.cpp:1168-1178`. -/
def Sys.setKey (s : Sys) (cxt : Nat) (n : Name) (key : Bytes) : Sys × Res :=
  match s.find cxt n with
  | none => (s, .exception)
  | some (some (.toeplitz k)) =>
    match Hash.updateKey k key with
    | (true, k') => (s.put cxt n (some (.toeplitz k')), .done)
    | (false, _) => (s, .code 3)
  | some _ => (s, .code 2)

/-- One request.  `none`: undefined behaviour (a null pointer is called; `/repo/include/bm/bm_sim/calculations.h:263-267`), or a
calculation the program does not have.  `/repo/src/bm_runtime/Standard_server.cpp:1136-1178`. -/
def Sys.step (xx : Bytes → BitVec 64) (s : Sys) : Req → Option (Sys × Res)
  | .compute cxt n buf =>
    match s.find cxt n with
    | some (some r) => do
      let (v, r') ← r.output xx buf
      return (s.put cxt n (some r'), .value v)
    | _ => none
  | .crc16 cxt n p i x ri ro =>
    some (s.setCrc cxt n (.w16 ⟨BitVec.ofInt 16 p, BitVec.ofInt 16 i, BitVec.ofInt 16 x, ri, ro⟩))
  | .crc32 cxt n p i x ri ro =>
    some (s.setCrc cxt n (.w32 ⟨BitVec.ofInt 32 p, BitVec.ofInt 32 i, BitVec.ofInt 32 x, ri, ro⟩))
  | .key cxt n key => some (s.setKey cxt n key)

/-- Requests one after the other, and the results. -/
def Sys.run (xx : Bytes → BitVec 64) (s : Sys) : List Req → Option (Sys × List Res)
  | [] => some (s, [])
  | q :: qs => do
    let (s1, r) ← s.step xx q
    let (s2, rs) ← s1.run xx qs
    return (s2, r :: rs)

/-! ## The command line tool -/

/-- How a command ends without a request: a message, or an exception nobody catches (the tool ends). -/
inductive End | told | crash
  deriving DecidableEq, Repr

/-- `hex_to_i16` and `hex_to_i32`; `none`: `int` fails with `ValueError`.  `/repo/tools/runtime_CLI.py:827-849`. -/
def hexToI (w : Nat) : Option Int → Except End Int
  | none => .error .crash
  | some x =>
    if x > 2 ^ w - 1 then .error .told
    else if x > 2 ^ (w - 1) - 1 then .ok (x - 2 ^ w)
    else .ok x

/-- Thrift writes a number of `w` bits (`struct.pack` fails if it does not fit). -/
def pack (w : Nat) (x : Int) : Except End Int :=
  if -(2 ^ (w - 1)) ≤ x ∧ x < 2 ^ (w - 1) then .ok x else .error .crash

/-- `set_crc_parameters_common` with the name, three numbers and two flags (`parse_bool`; `none`: `UIn_Error`); `calcs` is
`CUSTOM_CRC_CALCS`.  `/repo/tools/runtime_CLI.py:2560-2574,859-869`. -/
def cliCrc (calcs : Name → Option Nat) (w : Nat) (n : Name) (p i x : Option Int) (ri ro : Option Bool) :
    Except End Req := do
  if calcs n ≠ some w then .error .told else
  let p ← hexToI w p
  let i ← hexToI w i
  let x ← hexToI w x
  match ri, ro with
  | some ri, some ro =>
    let p ← pack w p
    let i ← pack w i
    let x ← pack w x
    return if w = 16 then .crc16 0 n p i x ri ro else .crc32 0 n p i x ri ro
  | _, _ => .error .told

/-- `do_set_toeplitz_hash_key`; it has no `@handle_bad_input`.  `/repo/tools/runtime_CLI.py:2599-2610`. -/
def cliKey (n : Name) (key : Option Bytes) : Except End Req :=
  match key with
  | none => .error .crash
  | some k => if k.length % 4 ≠ 0 then .error .crash else .ok (.key 0 n k)

/-- What the tool does with the answer: `checked` for commands with `@handle_bad_input`, which knows the error codes; all other
exceptions end the tool.  `/repo/tools/runtime_CLI.py:721-762`. -/
def cliEnd (checked : Bool) : Res → Option End
  | .done => none
  | .value _ => none
  | .code _ => some (if checked then .told else .crash)
  | .exception => some .crash

end Bm.Algo
