import Verif.Spec.Notify
import Verif.Model.Elog
import Verif.Model.Learning

/-!
# Model of notifications and of their receivers

The messages: `/repo/src/bm_sim/learning.cpp:429-450`, `/repo/src/bm_sim/ageing.cpp:189-207`,
`/repo/src/bm_sim/port_monitor.cpp:62-82`, `/repo/src/bm_sim/switch.cpp:553-568`, `/repo/src/bm_sim/context.cpp:877-895`.
The receivers: `/repo/src/bm_apps/learn.cpp`, `/repo/src/bm_apps/notifications.cpp`,
`/repo/targets/simple_switch/runner.cpp:41-256` (the same in `/repo/targets/simple_switch_grpc/switch_runner.cpp:262-479`).

* The machine is little-endian, structures are packed.
* A message is delivered as it was sent, and in order, to the subscribers of a prefix of it.  (The transport may lose
  messages; this is not modelled.)  `nn_recvmsg` fills the buffers of the receiver one after the other, leaves the rest of them
  as it was and drops what does not fit.
* Printing and logging are left out, and so is the number `send_msgs` returns.
-/

namespace Bm.Notify
open Elog Bm.Notify.Spec

/-! ## Messages -/

/-- `"LEA|"`. -/
def lea : Bytes := [0x4c, 0x45, 0x41, 0x7c]
/-- `"AGE|"`. -/
def age : Bytes := [0x41, 0x47, 0x45, 0x7c]
/-- `"PRT|"`. -/
def prt : Bytes := [0x50, 0x52, 0x54, 0x7c]
/-- `"SWP|"`. -/
def swp : Bytes := [0x53, 0x57, 0x50, 0x7c]
/-- `"TST|"`. -/
def tst : Bytes := [0x54, 0x53, 0x54, 0x7c]

/-- `MsgBuf::len` is an `unsigned int`.  `/repo/include/bm/bm_sim/transport.h:26-29`. -/
def buf (b : Bytes) : Bytes := b.take (b.length % 2 ^ 32)

/-- The message of `buffer_transmit`.  `/repo/src/bm_sim/learning.cpp:429-450`, `/repo/include/bm/bm_sim/learning.h:49-56`. -/
def learnMessage (dev cxt : Nat) (list : Int) (m : Learn.Msg Bytes) : Bytes :=
  (lea ++ (le 8 dev ++ (le 4 cxt ++ (i32 list ++ (le 8 m.id ++ le 4 m.num))))) ++ buf m.samples.flatten

/-- The message of `do_sweep`.  `/repo/src/bm_sim/ageing.cpp:189-207`, `/repo/include/bm/bm_sim/ageing.h:30-37`. -/
def ageMessage (dev cxt buffer : Nat) (table : Int) (handles : List Nat) : Bytes :=
  (age ++ (le 8 dev ++ (le 4 cxt ++ (le 8 buffer ++ (i32 table ++ le 4 handles.length)))))
    ++ buf (handles.map (le 4)).flatten

/-- `make_one_status`.  `/repo/src/bm_sim/port_monitor.cpp:80-82`. -/
def oneStatus (c : Nat × Bool) : Bytes := i32 c.1 ++ i32 (if c.2 then 1 else 0)

/-- `send_notifications`; nothing if nothing changed.  `/repo/src/bm_sim/port_monitor.cpp:62-78`,
`/repo/include/bm/bm_sim/port_monitor.h:44-54`. -/
def portMessage (dev : Nat) (changes : List (Nat × Bool)) : List Bytes :=
  if changes = [] then []
  else [(prt ++ (le 8 dev ++ (le 4 changes.length ++ List.replicate 16 0))) ++ buf (changes.map oneStatus).flatten]

/-- `transport_send_probe`.  `/repo/src/bm_sim/switch.cpp:553-568`. -/
def probeMessage (dev x : Nat) : Bytes := tst ++ (le 8 dev ++ (le 8 x ++ List.replicate 12 0))

/-- What `send_swap_status_notification` prepares.  `/repo/src/bm_sim/context.cpp:877-894`. -/
def swapMessage (dev cxt : Nat) (status : Int) : Bytes :=
  swp ++ (le 8 dev ++ (le 4 cxt ++ (i32 status ++ List.replicate 12 0)))

/-- `send_swap_status_notification`: the function ends before it sends what it has prepared.
`/repo/src/bm_sim/context.cpp:877-895`. -/
def sendSwapStatus (dev cxt : Nat) (status : Int) : List Bytes :=
  let _ := swapMessage dev cxt status
  []

/-- The messages of an event. -/
def sent (dev : Nat) : Event → List Bytes
  | .learn cxt list buffer samples => [learnMessage dev cxt list ⟨buffer, samples.length, samples⟩]
  | .age cxt buffer table handles => [ageMessage dev cxt buffer table handles]
  | .ports changes => portMessage dev changes
  | .probe x => [probeMessage dev x]

/-- The messages of what happens, `SwapStatus` being `/repo/include/bm/bm_sim/context.h:432-437`.
`/repo/src/bm_sim/context.cpp:815,825,861`. -/
def published (dev : Nat) : Bm.Notify.Spec.Item → List Bytes
  | .event e => sent dev e
  | .loaded cxt => sendSwapStatus dev cxt 0
  | .requested cxt => sendSwapStatus dev cxt 1
  | .completed cxt => sendSwapStatus dev cxt 2

/-! ## Listeners -/

/-- The buffers of a listener: 32 and 4096 bytes.  `/repo/src/bm_apps/learn.cpp:117-127`,
`/repo/src/bm_apps/notifications.cpp:193-204`. -/
structure Rx where
  hdr : Bytes
  data : Bytes
deriving DecidableEq

/-- `recvmsg`. -/
def Rx.recv (r : Rx) (m : Bytes) : Rx :=
  { hdr := m.take 32 ++ r.hdr.drop m.length, data := (m.drop 32).take 4096 ++ r.data.drop (m.length - 32) }

/-- An unsigned member of a structure. -/
def member (b : Bytes) (off k : Nat) : Nat := unle ((b.drop off).take k)

/-- A member of type `int`. -/
def intMember (b : Bytes) (off : Nat) : Int := signed ((b.drop off).take 4)

/-- `MsgInfo` from `learn_hdr_t`, and the call.  `/repo/src/bm_apps/learn.cpp:41-48,153-155`,
`/repo/src/bm_apps/notifications.cpp:26-33,146-161`. -/
def learnCall (r : Rx) : Call :=
  .learn (member r.hdr 4 8) (member r.hdr 12 4) (intMember r.hdr 16) (member r.hdr 20 8) (member r.hdr 28 4) r.data

/-- One turn of `LearnListener::listen_loop` for a message that was published; the socket subscribes to `"LEA"`.
`/repo/src/bm_apps/learn.cpp:110-112,129-156`. -/
def learnListener (r : Rx) (m : Bytes) : Rx × List Call :=
  if m.take 3 = lea.take 3 then (r.recv m, [learnCall (r.recv m)]) else (r, [])

/-- The callbacks that are registered. -/
structure Regs where
  learn : Bool
  age : Bool
  port : Bool

/-- `receive_AGE`.  `/repo/src/bm_apps/notifications.cpp:35-42,128-144`. -/
def ageCall (r : Rx) : Call :=
  .age (member r.hdr 4 8) (member r.hdr 12 4) (intMember r.hdr 24) (member r.hdr 16 8) (member r.hdr 28 4) r.data

/-- `statuses[i]`; `none`: outside the buffer.  `/repo/src/bm_apps/notifications.cpp:178-187`. -/
def statusAt (r : Rx) (i : Nat) : Option Call :=
  if 8 * i + 8 ≤ r.data.length then
    some (.port (member r.hdr 4 8) (intMember r.data (8 * i)) (decide (intMember r.data (8 * i + 4) ≠ 0)))
  else none

/-- `receive_PRT`.  `/repo/src/bm_apps/notifications.cpp:44-49,164-189`. -/
def portCalls (r : Rx) : Option (List Call) := (List.range (member r.hdr 12 4)).mapM (statusAt r)

/-- One turn of `NotificationsListenerImp::listen_loop`; `none`: memory outside the buffer is read.
`/repo/src/bm_apps/notifications.cpp:206-223`. -/
def listener (g : Regs) (r : Rx) (m : Bytes) : Option (Rx × List Call) :=
  let r := r.recv m
  let topic := r.hdr.take 4
  if topic = age then some (r, if g.age then [ageCall r] else [])
  else if topic = lea then some (r, if g.learn then [learnCall r] else [])
  else if topic = prt then
    if g.port then do return (r, ← portCalls r) else some (r, [])
  else some (r, [])

/-- A listener over a sequence of messages: the calls for each of them. -/
def listen (g : Regs) (r : Rx) : List Bytes → Option (List (List Call))
  | [] => some []
  | m :: ms => do
    let (r, cs) ← listener g r m
    return cs :: (← listen g r ms)

/-- `LearnListener` over a sequence of messages. -/
def listenLearn (r : Rx) : List Bytes → List (List Call)
  | [] => []
  | m :: ms => (learnListener r m).2 :: listenLearn (learnListener r m).1 ms

/-- What a callback reads as sample `i` of `w` bytes, as in `((const sample_t *) data) + i`; `none`: outside the buffer.
`/repo/targets/l2_switch/learn_client/learn_client.cpp:44-45`. -/
def sampleAt (data : Bytes) (w i : Nat) : Option Bytes :=
  if i * w + w ≤ data.length then some ((data.drop (i * w)).take w) else none

/-! ## PI -/

/-- What PI knows about a program: digests with the size of their data, tables. -/
structure P4Info where
  digestId : String → Option Nat
  digestSize : Nat → Nat
  tableId : String → Option Nat

/-- What `NotificationsCapture` looks up: names of lists and tables (`""`: no such table) of the program packets are
processed with, the program of a device.  `/repo/src/bm_sim/learning.cpp:640-647`, `/repo/src/bm_sim/ageing.cpp:138-144`. -/
structure Env where
  listName : Int → Option String
  tableName : Int → String
  info : Nat → Option P4Info

/-- `handle_SWP`.  `/repo/targets/simple_switch/runner.cpp:112-131`. -/
def handleSwp (ongoing : Bool) (m : Bytes) : Bool :=
  if member m 12 4 ≠ 0 then ongoing
  else if intMember m 16 = 0 then true
  else if intMember m 16 = 2 ∨ intMember m 16 = 3 then false
  else ongoing

/-- `handle_LEA`; outer `none`: division by zero.  `/repo/targets/simple_switch/runner.cpp:133-183`. -/
def handleLea (env : Env) (ongoing : Bool) (m : Bytes) : Option (List PiEvent) :=
  if ongoing then some []
  else match env.listName (intMember m 16) with
    | none => some []
    | some name => match env.info (member m 4 8) with
      | none => some []
      | some info => match info.digestId name with
        | none => some []
        | some id =>
          if member m 28 4 = 0 then none
          else if info.digestSize id ≠ (m.length - 32) / member m 28 4 then some []
          else some [.digest (member m 4 8) (member m 12 4) id (member m 20 8) (member m 28 4) (info.digestSize id)
            (m.drop 32)]

/-- `handles[i]`; `none`: behind the message. -/
def handleAt (m : Bytes) (i : Nat) : Option Nat :=
  if 32 + 4 * i + 4 ≤ m.length then some (member m (32 + 4 * i) 4) else none

/-- `handle_AGE`; outer `none`: memory behind the message is read.  `/repo/targets/simple_switch/runner.cpp:186-223`. -/
def handleAge (env : Env) (ongoing : Bool) (m : Bytes) : Option (List PiEvent) :=
  if ongoing then some []
  else if env.tableName (intMember m 24) = "" then some []
  else match env.info (member m 4 8) with
    | none => some []
    | some info => match info.tableId (env.tableName (intMember m 24)) with
      | none => some []
      | some id => do
        let hs ← (List.range (member m 28 4)).mapM (handleAt m)
        return hs.map fun h => .idle (member m 4 8) id h

/-- `send_generic`.  `/repo/targets/simple_switch/runner.cpp:93-110`. -/
def capture (env : Env) (ongoing : Bool) (m : Bytes) : Option (Bool × List PiEvent) :=
  if m.length < 32 then some (ongoing, [])
  else if m.take 4 = swp then some (handleSwp ongoing m, [])
  else if m.take 4 = lea then do return (ongoing, ← handleLea env ongoing m)
  else if m.take 4 = age then do return (ongoing, ← handleAge env ongoing m)
  else some (ongoing, [])

/-- A sequence of messages, each with what can be looked up when it arrives; the events of each. -/
def captureAll (ongoing : Bool) : List (Env × Bytes) → Option (List (List PiEvent))
  | [] => some []
  | (env, m) :: ms => do
    let (ongoing, es) ← capture env ongoing m
    return es :: (← captureAll ongoing ms)

/-! ## Acknowledgements -/

/-- What a client sends: the values as the Thrift types `i32`, `i32`, `i64`.  `/repo/src/bm_apps/learn.cpp:76-81`. -/
def ackRequest (cxt : Nat) (list : Int) (buffer : Nat) : Int × Int × Int :=
  (signed (le 4 cxt), list, if buffer < 2 ^ 63 then buffer else (buffer : Int) - 2 ^ 64)

/-- What the server hands to the learn engine: `cxt_id_t`, `int`, `uint64_t`.
`/repo/src/bm_runtime/Standard_server.cpp:865-874`. -/
def ackServed (q : Int × Int × Int) : Nat × Int × Nat :=
  ((q.1 % 2 ^ 32).toNat, q.2.1, (q.2.2 % 2 ^ 64).toNat)

end Bm.Notify
