import Verif.Model.SimpleSwitch
import Verif.Model.Queueing

/-!
# Mirroring sessions and settings of egress queues through Thrift, PD, PI and the command line tool

`/repo/targets/simple_switch/thrift/src/SimpleSwitch_server.cpp`, `/repo/targets/simple_switch/simple_switch.cpp:307-360`,
`/repo/pdfixed/src/pd_mirroring.cpp`, `/repo/PI/src/pi_clone_imp.cpp`, `/repo/targets/simple_switch/sswitch_CLI.py`.

The sessions themselves are those of `Model/SimpleSwitch`, the queues those of `Model/Queueing`.

Simplifications:
- One switch: all devices of PD are connected to it.
- `pi_clone_session_id_t` (not in this repository) is taken as a number of 32 bits.
- Arguments of commands are given as the results of `int` (`none`: it fails).
- Logging is left out, and so are the two requests about the time.
-/

namespace Bm.SsMgmt

open Bm.SSwitch (Session addSession deleteSession getSession)

variable {T : Type}

/-- The switch: sessions and egress queues.  `/repo/targets/simple_switch/simple_switch.h:188-202`. -/
structure Sw (T : Type) where
  sess : Int → Option Session := fun _ => none
  q : Queueing.State T

/-! ## Thrift -/

/-- The requests.  `/repo/targets/simple_switch/thrift/simple_switch.thrift:31-51`. -/
inductive Rpc
  | mapAdd (id port : BitVec 32)
  | mapDel (id : BitVec 32)
  | mapGet (id : BitVec 32)
  | sessAdd (id : BitVec 32) (port mgid : Option (BitVec 32))
  | sessDel (id : BitVec 32)
  | sessGet (id : BitVec 32)
  | depthPri (port pri depth : BitVec 32)
  | depth (port depth : BitVec 32)
  | depthAll (depth : BitVec 32)
  | ratePri (port pri : BitVec 32) (rate : BitVec 64)
  | rate (port : BitVec 32) (rate : BitVec 64)
  | rateAll (rate : BitVec 64)
  deriving DecidableEq

/-- The answers; `notFound`: `InvalidMirroringOperation`, `exception`: any other. -/
inductive Reply
  | int (v : BitVec 32)
  | void
  | config (port mgid : Option (BitVec 32))
  | notFound
  | exception
  deriving DecidableEq, Repr

/-- A `bool` as `int32_t`. -/
def ofBool (b : Bool) : BitVec 32 := if b then 1 else 0

/-- `int32_t` to `size_t`.  `/repo/targets/simple_switch/thrift/src/SimpleSwitch_server.cpp:96-102`. -/
def toSize (x : BitVec 32) : Nat := (x.signExtend 64).toNat

/-- A setter of the queues and its return value, which is always 0; `std::out_of_range` leaves the handler.
`/repo/targets/simple_switch/simple_switch.cpp:324-360`. -/
def Sw.setQ (F : Queueing.Fixed) (s : Sw T) (op : Queueing.Op T) : Option (Sw T × Reply) := do
  let (r, q) ← Queueing.exec F s.q op
  return ({ s with q := q }, match r with | .throws => .exception | _ => .int 0)

/-- The handler; `t`: the time.  `/repo/targets/simple_switch/thrift/src/SimpleSwitch_server.cpp:33-135`. -/
def Sw.rpc (F : Queueing.Fixed) (s : Sw T) (t : Int) : Rpc → Option (Sw T × Reply)
  | .mapAdd id port =>
    let (b, m) := addSession s.sess id.toInt ⟨some port.toNat, none⟩
    some ({ s with sess := m }, .int (ofBool b))
  | .mapDel id =>
    let (b, m) := deleteSession s.sess id.toInt
    some ({ s with sess := m }, .int (ofBool b))
  | .mapGet id =>
    match getSession s.sess id.toInt with
    | some ⟨some p, _⟩ => some (s, .int (BitVec.ofNat 32 p))
    | _ => some (s, .int (-1))
  | .sessAdd id port mgid =>
    let (_, m) := addSession s.sess id.toInt ⟨port.map BitVec.toNat, mgid.map BitVec.toNat⟩
    some ({ s with sess := m }, .void)
  | .sessDel id =>
    let (b, m) := deleteSession s.sess id.toInt
    some ({ s with sess := m }, if b then .void else .notFound)
  | .sessGet id =>
    match getSession s.sess id.toInt with
    | some ⟨p, g⟩ => some (s, .config (p.map (BitVec.ofNat 32)) (g.map (BitVec.ofNat 32)))
    | none => some (s, .notFound)
  | .depthPri port pri depth => s.setQ F (.setCapPri (toSize port) (toSize pri) depth.toNat t)
  | .depth port depth => s.setQ F (.setCap (toSize port) depth.toNat t)
  | .depthAll depth => s.setQ F (.setCapAll depth.toNat)
  | .ratePri port pri rate => s.setQ F (.setRatePri (toSize port) (toSize pri) rate.toNat t)
  | .rate port rate => s.setQ F (.setRate (toSize port) rate.toNat t)
  | .rateAll rate => s.setQ F (.setRateAll rate.toNat)

/-! ## PD -/

/-- The functions of PD which do something.  `/repo/pdfixed/src/pd_mirroring.cpp:38-101`. -/
inductive Pd
  | create (id port : BitVec 16)
  | update (id port : BitVec 16)
  | delete (id : BitVec 16)
  deriving DecidableEq

/-- The request behind.  `/repo/pdfixed/src/pd_mirroring.cpp:59,83,100`. -/
def Pd.rpc : Pd → Rpc
  | .create id port => .mapAdd (id.setWidth 32) (port.setWidth 32)
  | .update id port => .mapAdd (id.setWidth 32) (port.setWidth 32)
  | .delete id => .mapDel (id.setWidth 32)

/-- A call of PD, with the value it returns.  `/repo/pdfixed/src/pd_mirroring.cpp:55-59,79-83,96-100`. -/
def Sw.pd (F : Queueing.Fixed) (s : Sw T) (t : Int) (dev : Int) (c : Pd) : Option (Sw T × Reply) :=
  if dev < 0 ∨ dev ≥ 256 then some (s, .int 1) else s.rpc F t c.rpc

/-! ## PI -/

/-- `pi_clone_session_config_t`; `both`: `PI_CLONE_DIRECTION_BOTH`.  `/repo/PI/src/pi_clone_imp.cpp:35-43`. -/
structure PiConf where
  both : Bool
  port : BitVec 32
  portValid : Bool
  group : BitVec 32
  groupValid : Bool
  maxLen : Nat
  deriving DecidableEq

/-- `pi_status_t`. -/
inductive Status | success | notImplemented | targetError
  deriving DecidableEq, Repr

/-- `_pi_clone_session_set`.  `/repo/PI/src/pi_clone_imp.cpp:26-48`. -/
def Sw.piSet (s : Sw T) (id : BitVec 32) (c : PiConf) : Sw T × Status :=
  if c.both = false then (s, .notImplemented)
  else if c.maxLen ≠ 0 then (s, .notImplemented)
  else
    let (b, m) := addSession s.sess id.toInt
      ⟨if c.portValid then some c.port.toNat else none, if c.groupValid then some c.group.toNat else none⟩
    ({ s with sess := m }, if b then .success else .targetError)

/-- `_pi_clone_session_reset`.  `/repo/PI/src/pi_clone_imp.cpp:50-60`. -/
def Sw.piReset (s : Sw T) (id : BitVec 32) : Sw T × Status :=
  let (b, m) := deleteSession s.sess id.toInt
  ({ s with sess := m }, if b then .success else .targetError)

/-! ## The command line tool -/

/-- How a command ends: as it should, with a message, or with an exception nobody catches. -/
inductive End | fine | told | crash
  deriving DecidableEq, Repr

/-- The commands.  `/repo/targets/simple_switch/sswitch_CLI.py:44-117`. -/
inductive Cmd | depth | rate | add | addMc | del | get
  deriving DecidableEq

/-- `parse_int`.  `/repo/tools/runtime_CLI.py:927-931`. -/
def parseInt : Option Int → Except End Int
  | some x => .ok x
  | none => .error .told

/-- Thrift writes a number of `w` bits (`struct.pack` fails if it does not fit). -/
def pack (w : Nat) (x : Int) : Except End (BitVec w) :=
  if -(2 ^ (w - 1)) ≤ x ∧ x < 2 ^ (w - 1) then .ok (BitVec.ofInt w x) else .error .crash

/-- A command with its arguments: the request.  `/repo/targets/simple_switch/sswitch_CLI.py:44-117`,
`/repo/tools/runtime_CLI.py:917-931`. -/
def Cmd.read : Cmd → List (Option Int) → Except End Rpc
  | .depth, n :: p :: i :: _ => do
    let n ← parseInt n
    let p ← parseInt p
    let i ← parseInt i
    return .depthPri (← pack 32 p) (← pack 32 i) (← pack 32 n)
  | .depth, [n, p] => do
    let n ← parseInt n
    let p ← parseInt p
    return .depth (← pack 32 p) (← pack 32 n)
  | .depth, [n] => do
    let n ← parseInt n
    return .depthAll (← pack 32 n)
  | .depth, [] => .error .told
  | .rate, n :: p :: i :: _ => do
    let n ← parseInt n
    let p ← parseInt p
    let i ← parseInt i
    return .ratePri (← pack 32 p) (← pack 32 i) (← pack 64 n)
  | .rate, [n, p] => do
    let n ← parseInt n
    let p ← parseInt p
    return .rate (← pack 32 p) (← pack 64 n)
  | .rate, [n] => do
    let n ← parseInt n
    return .rateAll (← pack 64 n)
  | .rate, [] => .error .told
  | .add, [i, p] => do
    let i ← parseInt i
    let p ← parseInt p
    return .sessAdd (← pack 32 i) (some (← pack 32 p)) none
  | .addMc, [i, g] => do
    let i ← parseInt i
    let g ← parseInt g
    return .sessAdd (← pack 32 i) none (some (← pack 32 g))
  | .del, [i] => do
    let i ← parseInt i
    return .sessDel (← pack 32 i)
  | .get, [i] => do
    let i ← parseInt i
    return .sessGet (← pack 32 i)
  | _, _ => .error .told

/-- What the tool does with the answer: results are not looked at.
`/repo/targets/simple_switch/sswitch_CLI.py:23-32`. -/
def Reply.cli : Reply → End
  | .notFound => .told
  | .exception => .crash
  | _ => .fine

/-! ## Everything -/

/-- What happens: packets at the queues, and requests. -/
inductive Ev (T : Type)
  | queue (op : Queueing.Op T)
  | thrift (r : Rpc)
  | pd (dev : Int) (c : Pd)
  | piSet (id : BitVec 32) (c : PiConf)
  | piReset (id : BitVec 32)
  | cli (c : Cmd) (args : List (Option Int))

/-- What is seen of it; the tool shows a configuration. -/
inductive Ans (T : Type)
  | queue (r : Queueing.Res T)
  | reply (r : Reply)
  | status (s : Status)
  | cli (e : End) (shown : Option (Option (BitVec 32) × Option (BitVec 32)))
  deriving DecidableEq

/-- `print(config)`.  `/repo/targets/simple_switch/sswitch_CLI.py:113-114`. -/
def Reply.shown : Reply → Option (Option (BitVec 32) × Option (BitVec 32))
  | .config p g => some (p, g)
  | _ => none

/-- One event at time `t`.  `/repo/targets/simple_switch/simple_switch.cpp:307-360`. -/
def Sw.step (F : Queueing.Fixed) (s : Sw T) (t : Int) : Ev T → Option (Sw T × Ans T)
  | .queue op => do
    let (r, q) ← Queueing.exec F s.q op
    return ({ s with q := q }, .queue r)
  | .thrift r => do
    let (s', a) ← s.rpc F t r
    return (s', .reply a)
  | .pd dev c => do
    let (s', a) ← s.pd F t dev c
    return (s', .reply a)
  | .piSet id c => some ((s.piSet id c).1, .status (s.piSet id c).2)
  | .piReset id => some ((s.piReset id).1, .status (s.piReset id).2)
  | .cli c args =>
    match c.read args with
    | .error e => some (s, .cli e none)
    | .ok r => do
      let (s', a) ← s.rpc F t r
      return (s', .cli a.cli a.shown)

/-- One after the other. -/
def Sw.run (F : Queueing.Fixed) (s : Sw T) : List (Int × Ev T) → Option (Sw T × List (Ans T))
  | [] => some (s, [])
  | (t, e) :: es => do
    let (s1, a) ← s.step F t e
    let (s2, as) ← s1.run F es
    return (s2, a :: as)

end Bm.SsMgmt
