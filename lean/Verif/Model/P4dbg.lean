import Verif.Model.Debugger
import Verif.Spec.P4dbg

/-!
# The command line tool of the debugger

`/repo/tools/p4dbg.py`, connected to the debugger of the switch (`Verif.Model.Debugger`) by messages of
bytes.

Simplifications: lines are split into words and numbers already (`int` of Python); sets are lists without
duplicates; an exception that is not handled, a failed assertion of either side and a message the other side
cannot read are all the end (`dead`); time-outs of the socket are not modelled; both sides are little endian;
after a change of configuration the user asks for the new one (if Thrift is not available the tool ends).
-/

namespace Bm.P4dbg

open Bm.Debugger.Spec (Pid Pkt Req Msg Vis)
open Bm.P4dbg.Spec

/-! ## Messages -/

/-- A number in `k` bytes, the least significant one first. -/
def le : Nat → Nat → Bytes
  | 0, _ => []
  | k + 1, v => UInt8.ofNat v :: le k (v / 256)

/-- The number. -/
def unle : Bytes → Nat
  | [] => 0
  | b :: l => b.toNat + 256 * unle l

/-- `struct.pack("Q", v)`.  `/repo/tools/p4dbg.py:306-319`. -/
def packQ (v : Int) : Option Bytes := if 0 ≤ v ∧ v.toNat < 2 ^ 64 then some (le 8 v.toNat) else none

/-- Several. -/
def packQs : List Int → Option Bytes
  | [] => some []
  | v :: l => match packQ v, packQs l with
    | some a, some b => some (a ++ b)
    | _, _ => none

/-- `generate`: the type (`"i"`, a small number), `switch_id = 0`, the number of the request, the rest.
`/repo/tools/p4dbg.py:228-243, 306-321, 344-480`. -/
def generate (n : Nat) (ty : Nat) (ps : List Int) : Option Bytes :=
  (packQs ((n : Int) :: ps)).map fun b => le 4 ty ++ (le 8 0 ++ b)

/-- A member of a packed structure; `none`: outside the message. -/
def rd (k off : Nat) (b : Bytes) : Option Nat :=
  if off + k ≤ b.length then some (unle ((b.drop off).take k)) else none

/-- The packets of a filter.  `/repo/src/bm_sim/debugger.cpp:594-618`. -/
def rdIds (b : Bytes) : Nat → Nat → Option (List Pid)
  | 0, _ => some []
  | k + 1, off => match rd 8 off b, rd 8 (off + 8) b, rdIds b k (off + 16) with
    | some p, some c, some l => some ((p, c) :: l)
    | _, _, _ => none

/-- `request_in`, `request_dispatch` and the structures of the requests; `none`: `assert(0)`, or members outside
the message.  `/repo/src/bm_sim/debugger.cpp:222-245, 488-533, 594-632, 803-876`. -/
def decode (b : Bytes) : Option (Nat × Req) :=
  match rd 4 0 b, rd 8 12 b with
  | some ty, some n =>
    if ty = 3 then some (n, .cont)
    else if ty = 4 then some (n, .next)
    else if ty = 5 then match rd 8 20 b, rd 8 28 b, rd 8 36 b with
      | some p, some c, some id => some (n, .getValue (p, c) id)
      | _, _, _ => none
    else if ty = 6 then match rd 8 20 b, rd 8 28 b with
      | some p, some c => some (n, .getBacktrace (p, c))
      | _, _ => none
    else if ty = 8 then some (n, .breakIn)
    else if ty = 9 then some (n, .removeIn)
    else if ty = 10 then some (n, .stopIn)
    else if ty = 11 then some (n, .resumeIn)
    else if ty = 12 then match rd 4 20 b with
      | some nb => (rdIds b (if nb < 2 ^ 31 then nb else 0) 24).map fun l => (n, .filter l)
      | none => none
    else if ty = 13 then (rd 8 20 b).map fun id => (n, .watch id)
    else if ty = 14 then (rd 8 20 b).map fun id => (n, .unwatch id)
    else if ty = 16 then some (n, .reset)
    else if ty = 18 then some (n, .attach)
    else if ty = 19 then some (n, .detach)
    else none
  | _, _ => none

/-- The first members of every reply. -/
def head (ty n : Nat) : Bytes := le 4 ty ++ le 8 0 ++ le 8 n

/-- `send_rep_status`, `send_field_value`, `send_backtrace`, `send_packet_in`, `send_keep_alive`.
`/repo/src/bm_sim/debugger.cpp:241-257, 691-802`. -/
def encode (n : Nat) : Msg → Bytes
  | .packetIn p port => head 0 n ++ le 8 p.1 ++ le 8 p.2 ++ le 4 (port % 2 ^ 32).toNat
  | .field p id b => head 2 n ++ le 8 p.1 ++ le 8 p.2 ++ le 8 id ++ le 4 b.length ++ b
  | .backtrace p l => head 7 n ++ le 8 p.1 ++ le 8 p.2 ++ le 4 l.length ++ l.flatMap (le 4)
  | .status c => head 15 n ++ le 4 c ++ le 8 0
  | .keepAlive => head 17 n ++ le 4 0 ++ le 8 0

/-- A number as a signed one. -/
def signed (v : Nat) : Int := if v < 2 ^ 31 then v else (v : Int) - 2 ^ 32

/-- `struct.unpack("%di" % nb, ctrs)`.  `/repo/tools/p4dbg.py:1007`. -/
def unpack : Nat → Bytes → List Nat
  | 0, _ => []
  | k + 1, b => unle (b.take 4) :: unpack k (b.drop 4)

/-- `wait_for_msg`: the type, then the members of that type of message (only types the debugger sends);
`unpack_from` fails if they are outside the message.
`/repo/tools/p4dbg.py:259-289, 344-480, 1147-1156`. -/
def extract (b : Bytes) : Option (Nat × Msg) :=
  match rd 4 0 b, rd 8 4 b, rd 8 12 b with
  | some ty, some _, some n =>
    if ty = 0 then match rd 8 20 b, rd 8 28 b, rd 4 36 b with
      | some p, some c, some port => some (n, .packetIn (p, c) (signed port))
      | _, _, _ => none
    else if ty = 2 then match rd 8 20 b, rd 8 28 b, rd 8 36 b, rd 4 44 b with
      | some p, some c, some id, some k =>
        if 48 + k ≤ b.length then some (n, .field (p, c) id ((b.drop 48).take k)) else none
      | _, _, _, _ => none
    else if ty = 7 then match rd 8 20 b, rd 8 28 b, rd 4 36 b with
      | some p, some c, some k =>
        if 40 + 4 * k ≤ b.length then some (n, .backtrace (p, c) (unpack k ((b.drop 40).take (4 * k)))) else none
      | _, _, _ => none
    else if ty = 15 then match rd 4 20 b, rd 8 24 b with
      | some c, some _ => some (n, .status c)
      | _, _ => none
    else if ty = 17 then some (n, .keepAlive)
    else none
  | _, _, _ => none

/-! ## Names -/

/-- A dictionary: the value assigned last. -/
def dict {α β : Type} [DecidableEq α] (l : List (α × β)) (k : α) : Option β :=
  (l.reverse.find? fun x => x.1 == k).map Prod.snd

/-- `FieldMap.load_names`.  `/repo/tools/p4dbg.py:41-81`. -/
def fieldList (P : Program) : List ((Nat × Nat) × String) :=
  P.headers.flatMap fun h => (h.2.2 ++ ["$valid$"]).zipIdx.map fun x => ((h.1, x.2), h.2.1 ++ "." ++ x.1)

/-- `get_field_id_from_name`.  `/repo/tools/p4dbg.py:89-90, 104-106`. -/
def fieldId (P : Program) (f : String) : Option Nat :=
  (dict ((fieldList P).map Prod.swap) f).map fun x => (x.1 <<< 32) ||| x.2

/-- `get_name_from_field_id`.  `/repo/tools/p4dbg.py:83-84, 108-111`. -/
def fieldName (P : Program) (id : Nat) : Option String := dict (fieldList P) (id >>> 32, id &&& 0xffffffff)

/-- `field_id_from_name`.  `/repo/tools/p4dbg.py:777-787`. -/
def fieldIdFrom (P : Program) (f : String) : Option Nat :=
  if f = "$cond" then some 0xfffffffffffffffe
  else if f = "$action" then some 0xfffffffffffffffd
  else fieldId P f

/-- `ObjectMap.ids`.  `/repo/tools/p4dbg.py:149-160`. -/
def typeName : Nat → Option String
  | 1 => some "parser"
  | 2 => some "parse_state"
  | 3 => some "pipeline"
  | 4 => some "table"
  | 5 => some "condition"
  | 6 => some "action"
  | 7 => some "deparser"
  | _ => none

/-- `ObjectMap.ids_rev`.  `/repo/tools/p4dbg.py:161-163`. -/
def typeId (t : String) : Option Nat :=
  if t = "parser" then some 1
  else if t = "parse_state" then some 2
  else if t = "pipeline" then some 3
  else if t = "table" then some 4
  else if t = "condition" then some 5
  else if t = "action" then some 6
  else if t = "deparser" then some 7
  else none

/-- `resolve_ctr`.  `/repo/tools/p4dbg.py:201-210`. -/
def resolve (P : Program) (v : Nat) : Option (String × String) :=
  match typeName ((v >>> 24) &&& 0x7f) with
  | none => none
  | some t => (dict (P.objs.map fun x => ((x.1, x.2.1), x.2.2)) ((v >>> 24) &&& 0x7f, v &&& 0xffffff)).map fun o => (t, o)

/-- `lookup_ctr`.  `/repo/tools/p4dbg.py:212-219`. -/
def lookupCtr (P : Program) (t o : String) : Option Nat :=
  match typeId t with
  | none => none
  | some k => (dict (P.objs.map fun x => ((x.1, x.2.2), x.2.1)) (k, o)).map fun i => (k <<< 24) ||| i

/-- `json_dependent_init`: the configuration that is used if one is there already, and the one the switch has.
`/repo/tools/p4dbg.py:577-583`. -/
def useConfig (have_ : Option Program) (switch : Program) : Program :=
  match have_ with
  | none => switch
  | some P => P

/-! ## The tool -/

/-- The attributes; `brk`, `stp`: `break_packet_in` and `stop_packet_in`, which are not there at first.
`/repo/tools/p4dbg.py:555-602`. -/
structure Tool where
  reqId : Nat := 0
  wps : List Nat := []
  bps : List Nat := []
  skips : List Pid := []
  skipsAll : List Nat := []
  current : Option Pid := none
  wantPrompt : Bool := false
  attached : Bool := false
  brk : Option Bool := none
  stp : Option Bool := none
deriving DecidableEq, Repr

/-- `reset`.  `/repo/tools/p4dbg.py:591-602`. -/
def Tool.reset (t : Tool) : Tool :=
  { t with wps := [], bps := [], skips := [], skipsAll := [], current := none, wantPrompt := false, attached := false }

/-- `set.add`. -/
def add {α : Type} [DecidableEq α] (a : α) (l : List α) : List α := if a ∈ l then l else a :: l

/-- `set.remove`. -/
def del {α : Type} [DecidableEq α] (a : α) (l : List α) : List α := l.filter fun x => x != a

/-- What the tool does next: print and prompt, send a message and wait, send the message again, end, fail. -/
inductive Do
  | say (t : Tool) (o : Out)
  | send (t : Tool) (b : Bytes)
  | again (t : Tool)
  | over
  | crash
deriving DecidableEq, Repr

/-- `get_req_id`, `generate`, `send`.  `/repo/tools/p4dbg.py:916-919`. -/
def send (t : Tool) (ty : Nat) (ps : List Int) : Do :=
  match generate t.reqId ty ps with
  | some b => .send { t with reqId := t.reqId + 1 } b
  | none => .crash

/-- The packet given, or the current one. -/
def packet (t : Tool) : Option (Int × Int) → Option (Int × Int)
  | some p => some p
  | none => t.current.map fun p => ((p.1 : Int), (p.2 : Int))

/-- The functions `do_…` up to the point where they wait for a reply.  A filter is put together from a `str` and
`bytes`, which is a `TypeError`, as is packing an empty `str`.
`/repo/tools/p4dbg.py:615-640, 645-650, 731-736, 752-757, 772-776, 789-801, 812-826, 838-858, 880-894, 910-914, 933-957,
978-998, 1012-1116`. -/
def begin (P : Program) (t : Tool) : Cmd → Do
  | .attach => send t 18 []
  | .eof => send t 19 []
  | .cont => send t 3 []
  | .next => send t 4 []
  | .reset => send t 16 []
  | .setWp f => match fieldIdFrom P f with
    | none => .say t .error
    | some id => send t 13 [(id : Int)]
  | .unsetWp f => match fieldIdFrom P f with
    | none => .say t .error
    | some id => if id ∈ t.wps then send t 14 [(id : Int)] else .say t .error
  | .showWps => match t.wps.mapM (fieldName P) with
    | some l => .say t (.names l)
    | none => .crash
  | .brk ty o => match lookupCtr P ty o with
    | none => .say t .error
    | some v =>
      if t.bps.isEmpty then send t 13 [0xffffffffffffffff]
      else .say { t with bps := add v t.bps } .done
  | .delete ty o => match lookupCtr P ty o with
    | none => .say t .error
    | some v => if v ∈ t.bps then .say { t with bps := del v t.bps } .done else .say t .error
  | .showBps => match t.bps.mapM (resolve P) with
    | some l => .say t (.objs l)
    | none => .crash
  | .print p f => match packet t p with
    | none => .say t .error
    | some q => match fieldIdFrom P f with
      | none => .say t .error
      | some id => send t 5 [q.1, q.2, (id : Int)]
  | .bt p => match packet t p with
    | none => .say t .error
    | some q => send t 6 [q.1, q.2]
  | .breakIn => send t 8 []
  | .removeIn => match t.brk with
    | none => .crash
    | some false => .say t .notSet
    | some true => send t 9 []
  | .stopIn => send t 10 []
  | .resumeIn => match t.stp with
    | none => .crash
    | some false => .say t .notSet
    | some true => send t 11 []
  | .filter _ => .crash
  | .skip => match t.current with
    | none => .say t .done
    | some p => .say { t with skips := add p t.skips } .done
  | .skipAll => match t.current with
    | none => .say t .done
    | some p => .say { t with skipsAll := add p.1 t.skipsAll } .done

/-- `int(v.hex(), 16)`, 0 if there are no bytes.  `/repo/tools/p4dbg.py:276-286`. -/
def bytesInt (b : Bytes) : Nat := b.foldl (fun a x => a * 256 + x.toNat) 0

/-- What `do_continue` and `do_next` print of a field; `none`: an assertion or a lookup fails.
`/repo/tools/p4dbg.py:721-769`. -/
def shown (P : Program) (t : Tool) (isNext : Bool) (id : Nat) (b : Bytes) : Option Shown :=
  if id = 0xffffffffffffffff then
    (resolve P (bytesInt b)).map fun x =>
      if 0x80 &&& (bytesInt b >>> 24) ≠ 0 then .exit x.1 x.2 else .enter x.1 x.2
  else if id = 0xfffffffffffffffe then some (.cond (bytesInt b != 0))
  else if id = 0xfffffffffffffffd then some .silent
  else if isNext ∨ id ∈ t.wps then (fieldName P id).map fun f => .field f b (bytesInt b)
  else none

/-- The packet is to be skipped.  `/repo/tools/p4dbg.py:707-710`. -/
def skipped (t : Tool) (p : Pid) : Bool := decide (p.1 ∈ t.skipsAll) || decide (p ∈ t.skips)

/-- `continue_or_next` after a message, and what follows it.  `/repo/tools/p4dbg.py:683-769`. -/
def goOn (P : Program) (t : Tool) (isNext : Bool) : Msg → Do
  | .keepAlive => if t.wantPrompt then .say { t with wantPrompt := false } .stopped else .again t
  | .status c => if c = 999 then .say t.reset .newConfig else .crash
  | .packetIn p _ => if skipped t p then .again t else .say { t with current := some p } (.event p .packetIn)
  | .field p id b =>
    if skipped t p then .again t
    else if isNext = false ∧ id = 0xffffffffffffffff ∧ bytesInt b ∉ t.bps then .again t
    else match shown P t isNext id b with
      | some s => .say { t with current := some p } (.event p s)
      | none => .crash
  | .backtrace _ _ => .crash

/-- The rest of the functions `do_…` once the message is there.
`/repo/tools/p4dbg.py:609-650, 801-804, 826-830, 857-862, 957-970, 998-1010, 1012-1064`. -/
def reply (P : Program) (t : Tool) (c : Cmd) (m : Msg) : Do :=
  match c with
  | .cont => goOn P t false m
  | .next => goOn P t true m
  | .print _ _ => match m with
    | .status 1 => .say t .gone
    | .status 2 => .say t .noValue
    | .field _ _ b => .say t (.value b (bytesInt b))
    | _ => .crash
  | .bt _ => match m with
    | .status 1 => .say t .gone
    | .backtrace _ l => match l.mapM (resolve P) with
      | some x => .say t (.trace x)
      | none => .crash
    | _ => .crash
  | .attach => match m with
    | .status _ => .say { t with attached := true } .done
    | _ => .crash
  | .eof => match m with
    | .status _ => .over
    | _ => .crash
  | .reset => match m with
    | .status _ => .say t.reset .done
    | _ => .crash
  | c => match m with
    | .status 0 => match c with
      | .setWp f => match fieldIdFrom P f with
        | some id => .say { t with wps := add id t.wps } .done
        | none => .crash
      | .unsetWp f => match fieldIdFrom P f with
        | some id => .say { t with wps := del id t.wps } .done
        | none => .crash
      | .brk ty o => match lookupCtr P ty o with
        | some v => .say { t with bps := add v t.bps } .done
        | none => .crash
      | .breakIn => .say { t with brk := some true } .done
      | .removeIn => .say { t with brk := some false } .done
      | .stopIn => .say { t with stp := some true } .done
      | .resumeIn => .say { t with stp := some false } .done
      | _ => .crash
    | _ => .crash

/-! ## The tool and the switch -/

/-- Where the tool is: not running, at the prompt, about to send a message, waiting for the reply; or something
failed. -/
inductive Mode
  | off
  | prompt (t : Tool)
  | sending (t : Tool) (c : Cmd) (b : Bytes)
  | busy (t : Tool) (c : Cmd) (b : Bytes)
  | dead
deriving DecidableEq, Repr

/-- What can happen: the tool is started, a command, a message is sent or received, an interrupt while the tool waits,
an interrupt at the prompt, a step of the switch. -/
inductive Act
  | up
  | cmd (c : Cmd)
  | tx
  | rx
  | intr
  | kill
  | dispatch
  | timeout
  | pkt (e : Pkt)
  | cfg

/-- The tool goes on. -/
def Do.mode (c : Cmd) (b0 : Bytes) : Do → Mode
  | .say t _ => .prompt t
  | .send t b => .sending t c b
  | .again t => .sending t c b0
  | .over => .off
  | .crash => .dead

/-- What it prints. -/
def Do.out : Do → List UVis
  | .say _ o => [.out o]
  | .over => [.out .bye]
  | _ => []

/-- A step of the switch. -/
def sw (s : Debugger.State) (m : Mode) (a : Debugger.Act) (v : List UVis) :
    Option (Debugger.State × Mode × List UVis) :=
  match Debugger.step s a with
  | .ok s' => some (s', m, v)
  | .bad => some (s, .dead, v)
  | .blocked => none

/-- One step and what the user sees of it, newest first; `none`: not possible.  An interrupt at the prompt ends the tool,
which detaches if it thinks it is attached.  `/repo/tools/p4dbg.py:609-643, 683-697, 1183-1201`. -/
def step (P : Program) (s : Debugger.State) (m : Mode) : Act → Option (Debugger.State × Mode × List UVis)
  | .up => match m with
    | .off => some (s, (begin P {} .attach).mode .attach [], [.up])
    | _ => none
  | .cmd c => match m with
    | .prompt t => some (s, (begin P t c).mode c [], (begin P t c).out ++ [.cmd c])
    | _ => none
  | .kill => match m with
    | .prompt t =>
      if t.attached then some (s, (begin P t .eof).mode .eof [], (begin P t .eof).out ++ [.cmd .eof])
      else some (s, .off, [.out .bye, .cmd .eof])
    | _ => none
  | .tx => match m with
    | .sending t c b => match decode b with
      | some (n, r) => sw s (.busy t c b) (.recv n r) []
      | none => some (s, .dead, [])
    | _ => none
  | .rx => match m with
    | .busy t c b => match s.reply with
      | none => none
      | some (k, r) => match extract (encode k r) with
        | some (_, r') => sw s ((reply P t c r').mode c b) .send (reply P t c r').out
        | none => some (s, .dead, [])
    | _ => none
  | .intr => match m with
    | .busy t c b => if goes c then some (s, .busy { t with wantPrompt := true } c b, [.intr]) else none
    | _ => none
  | .dispatch => sw s m .dispatch []
  | .timeout => sw s m .timeout []
  | .pkt e => sw s m (.pkt e) [.pkt e]
  | .cfg => sw s m .cfg []

end Bm.P4dbg
