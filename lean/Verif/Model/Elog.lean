import Verif.Spec.Elog
import Verif.Model.Pipeline
import Verif.Model.PacketBuffer

/-!
# Model of the event logger and of its client

`/repo/src/bm_sim/event_logger.cpp`, the places that report events (`BMELOG`), and `/repo/tools/nanomsg_client.py`.

* The machine is little-endian, structures are packed.
* A message is delivered as it was sent, and in order.  (The transport may lose messages; this is not modelled.)
* The text a line is printed as is not modelled: a line has the values that are printed.
* The identity of a packet does not change while it is processed; events have it beside them.
* Names are looked up in the list of objects of the program (`NameMap`), in the order in which they are inserted.  Objects
  of the kind `header_type` are never looked up and left out.  A JSON document without some of the lists is an exception;
  documents have all of them here.
-/

namespace Bm.Elog
open Spec Pipe MT

/-! ## Messages -/

/-- An unsigned number as `k` bytes, least significant first. -/
def le : Nat → Nat → Bytes
  | 0, _ => []
  | k + 1, n => (n % 256).toUInt8 :: le k (n / 256)

/-- An `int`; larger values are converted modulo `2^32`. -/
def i32 (x : Int) : Bytes := le 4 (x % 2 ^ 32).toNat

/-- `EventType`.  `/repo/src/bm_sim/event_logger.cpp:25-34`. -/
def Ev.type : Ev → Int
  | .packetIn _ => 0
  | .packetOut _ => 1
  | .parserStart _ => 2
  | .parserDone _ => 3
  | .extract _ => 4
  | .deparserStart _ => 5
  | .deparserDone _ => 6
  | .emit _ => 7
  | .checksum _ => 8
  | .pipeStart _ => 9
  | .pipeDone _ => 10
  | .cond _ _ => 11
  | .hit _ _ => 12
  | .miss _ => 13
  | .action _ => 14

/-- `fill_msg_hdr`, `msg_hdr_t`.  `/repo/src/bm_sim/event_logger.cpp:36-57`. -/
def hdr (type : Int) (p : Pk) : Bytes :=
  i32 type ++ (le 8 p.dev ++ (le 4 p.cxt ++ (le 8 p.sig ++ (le 8 p.id ++ le 8 p.copy))))

/-- The members behind the header.  `/repo/src/bm_sim/event_logger.cpp:60-258`. -/
def Ev.body : Ev → Bytes
  | .packetIn i | .packetOut i | .parserStart i | .parserDone i | .extract i | .deparserStart i | .deparserDone i
  | .emit i | .checksum i | .pipeStart i | .pipeDone i | .miss i | .action i => i32 i
  | .cond i b => i32 i ++ i32 (if b then 1 else 0)
  | .hit i h => i32 i ++ i32 h

/-- The message of an event.  `/repo/src/bm_sim/event_logger.cpp:60-258`. -/
def message (p : Pk) (e : Ev) : Bytes := hdr e.type p ++ e.body

/-- `config_change`.  `/repo/src/bm_sim/event_logger.cpp:260-267`. -/
def changeMessage (dev : Nat) : Bytes := hdr 999 ⟨dev, 0, 0, 0, 0⟩

/-! ## The client -/

/-- The value of bytes, least significant first. -/
def unle : Bytes → Nat
  | [] => 0
  | b :: bs => b.toNat + 256 * unle bs

/-- Format `i`. -/
def signed (bs : Bytes) : Int := if unle bs < 2 ^ 31 then unle bs else (unle bs : Int) - 2 ^ 32

/-- `extract_hdr`: `struct.error` if the message is shorter than 40 bytes; the rest of the message.
`/repo/tools/nanomsg_client.py:129-134`. -/
def extractHdr (m : Bytes) : Option (Pk × Bytes) :=
  if m.length < 40 then none
  else some (⟨unle ((m.drop 4).take 8), unle ((m.drop 12).take 4), unle ((m.drop 16).take 8), unle ((m.drop 24).take 8),
    unle ((m.drop 32).take 8)⟩, m.drop 40)

/-- `struct.Struct("i").unpack`. -/
def unpack1 (m : Bytes) : Option Int := if m.length = 4 then some (signed m) else none

/-- `struct.Struct("ii").unpack`. -/
def unpack2 (m : Bytes) : Option (Int × Int) :=
  if m.length = 8 then some (signed (m.take 4), signed (m.drop 4)) else none

/-- `get_msg_class` and the `extract` functions of the classes; outer `none`: no class for the type, inner `none`:
`struct.error`.  `/repo/tools/nanomsg_client.py:81-100,136-139,148-442`. -/
def extractBody (type : Int) (m : Bytes) : Option (Option Ev) :=
  if type = 0 then some ((unpack1 m).map .packetIn)
  else if type = 1 then some ((unpack1 m).map .packetOut)
  else if type = 2 then some ((unpack1 m).map .parserStart)
  else if type = 3 then some ((unpack1 m).map .parserDone)
  else if type = 4 then some ((unpack1 m).map .extract)
  else if type = 5 then some ((unpack1 m).map .deparserStart)
  else if type = 6 then some ((unpack1 m).map .deparserDone)
  else if type = 7 then some ((unpack1 m).map .emit)
  else if type = 8 then some ((unpack1 m).map .checksum)
  else if type = 9 then some ((unpack1 m).map .pipeStart)
  else if type = 10 then some ((unpack1 m).map .pipeDone)
  else if type = 11 then some ((unpack2 m).map fun x => .cond x.1 (decide (x.2 ≠ 0)))
  else if type = 12 then some ((unpack2 m).map fun x => .hit x.1 x.2)
  else if type = 13 then some ((unpack1 m).map .miss)
  else if type = 14 then some ((unpack1 m).map .action)
  else none

/-- `get_name`: later insertions replace earlier ones.  `/repo/tools/nanomsg_client.py:33-60`. -/
def lookupName (objs : Objects) (o : Kind × Int) : Option String := (objs.reverse.find? fun x => x.1 = o).map Prod.snd

/-- The name that is printed: not the empty one.  `/repo/tools/nanomsg_client.py:187-192`. -/
def shownName (objs : Objects) (o : Option (Kind × Int)) : Option String :=
  match o.bind (lookupName objs) with
  | some s => if s = "" then none else some s
  | none => none

/-- What is done with one message.  `/repo/tools/nanomsg_client.py:459-475`. -/
inductive Got
  /-- `struct.error`, which ends the client -/
  | crash
  | unknown (type : Int)
  | event (pk : Pk) (e : Ev)
  | change (dev : Nat)
  deriving DecidableEq, Repr

/-- Reading a message.  `/repo/tools/nanomsg_client.py:129-139,425-442,452-470`. -/
def receive (m : Bytes) : Got :=
  if m.length < 4 then .crash
  else
    let type := signed (m.take 4)
    if type = 999 then
      match extractHdr m with
      | some (pk, []) => .change pk.dev
      | _ => .crash
    else
      match extractHdr m with
      | none => if (extractBody type []).isSome then .crash else .unknown type
      | some (pk, rest) =>
        match extractBody type rest with
        | none => .unknown type
        | some none => .crash
        | some (some e) => .event pk e

/-- The loop of `recv_msgs`; `cfgs` are the programs the switch answers with when it is asked after each change.
`/repo/tools/nanomsg_client.py:451-475`. -/
def client : Objects → List Objects → List Bytes → List Line
  | _, _, [] => []
  | objs, cfgs, m :: ms =>
    match receive m with
    | .crash => []
    | .unknown _ => client objs cfgs ms
    | .event pk e => .event pk e (shownName objs e.object) :: client objs cfgs ms
    | .change dev =>
      match cfgs with
      | c :: cfgs => .change dev :: client c cfgs ms
      | [] => [.change dev]

/-- The messages a switch sends. -/
def sent (dev : Nat) : Item → Bytes
  | .event pk e => message pk e
  | .change _ => changeMessage dev

/-! ## Pipelines -/

section
variable {kind : Nat → TableKind} {R σ : Type}

/-- `operator()` of the nodes, with what is reported.  `/repo/src/bm_sim/match_tables.cpp:84-131`,
`/repo/src/bm_sim/conditionals.cpp:20-47`, `/repo/src/bm_sim/control_action.cpp:36-44`, `/repo/src/bm_sim/actions.cpp:423-441`. -/
def step (ids : Ids) (sem : Sem σ) (sw : Sw kind R σ) (n : Nat) (s : σ) :
    Option (List Ev × Option Nat × σ × Sw kind R σ) :=
  match sw.nodes n with
  | none => none
  | some (.table t tab) => do
    let (a, tab) ← tab.apply (t.key s) (t.nbytes s) (t.ts s)
    let seen := match a.hit with
      | some h => Ev.hit (ids.table n) h
      | none => Ev.miss (ids.table n)
    let run := match a.act with
      | some (f, _) => [Ev.action f.id]
      | none => []
    let s ← sem.run a.act (sem.mark a.hit a.index s)
    return (seen :: run, a.next, s, sw.set n (.table t tab))
  | some (.cond ev t f) => do
    let b ← ev s
    return ([.cond (ids.cond n) b], if b then t else f, s, sw)
  | some (.call fn next) => do
    let s ← sem.act fn [] s
    return ([.action fn.id], next, s, sw)

/-- The loop of `Pipeline::apply`, with what is reported.  `/repo/src/bm_sim/pipeline.cpp:28-35`. -/
def loop (ids : Ids) (sem : Sem σ) : Nat → Sw kind R σ → Option Nat → σ →
    Option (List Ev × List Nat × Stop σ × Sw kind R σ)
  | _, sw, none, s => some ([], [], .ended s, sw)
  | 0, sw, some n, s => some ([], [], if sem.exit s then .ended s else .atNode n s, sw)
  | fuel + 1, sw, some n, s =>
    if sem.exit s then some ([], [], .ended s, sw)
    else do
      let (es, next, s, sw) ← step ids sem sw n s
      let (es', l, r, sw) ← loop ids sem fuel sw next s
      return (es ++ es', n :: l, r, sw)

/-- `Pipeline::apply`; the end is reported when the loop ends.  `/repo/src/bm_sim/pipeline.cpp:19-43`. -/
def pipeline (ids : Ids) (sem : Sem σ) (id : Int) (fuel : Nat) (sw : Sw kind R σ) (first : Option Nat) (s : σ) :
    Option (List Ev × List Nat × Stop σ × Sw kind R σ) := do
  let (es, l, r, sw) ← loop ids sem fuel sw first s
  return (.pipeStart id :: es ++ (match r with | .ended _ => [.pipeDone id] | _ => []), l, r, sw)

end

/-! ## Parsers -/

section
open Parse

/-- The header an operation extracts: it is reported before it is known whether the packet has enough data.
`/repo/src/bm_sim/parser.cpp:234-253,281-390`. -/
def attempted (st : St) : Parse.Op → List Ev
  | .extract h _ => [.extract h]
  | .extractVL h _ _ => [.extract h]
  | .extractStack s _ _ =>
    match st.phv.hstacks[s]? with
    | some stk => if stk.next = stk.elements.length then []
      else match stk.elements[stk.next]? with | some h => [.extract h] | none => []
    | none => []
  | .extractUnionStack s i _ _ =>
    match st.phv.unionStacks[s]? with
    | some stk => if stk.next = stk.elements.length then []
      else match stk.elements[stk.next]?.bind fun u => st.phv.unions[u]?.bind fun u => u.members[i]? with
        | some h => [.extract h]
        | none => []
    | none => []
  | _ => []

/-- The operations of a state.  `/repo/src/bm_sim/parser.cpp:1049-1050`. -/
def opsEvents (rz : Bool) (pkt : Parse.Pkt) (st : St) : List Parse.Op → Option (List Ev × Res)
  | [] => some ([], st, none)
  | op :: ops => do
    match ← op.exec rz pkt st with
    | (st', none) => do
      let (es, r) ← opsEvents rz pkt st' ops
      return (attempted st op ++ es, r)
    | (st', some e) => return (attempted st op, st', some e)

/-- `ParseState::operator()`.  `/repo/src/bm_sim/parser.cpp:1039-1075`. -/
def stateEvents (rz : Bool) (pkt : Parse.Pkt) (st : St) (s : PState) : Option (List Ev × Res × Option Nat) := do
  match ← opsEvents rz pkt st s.ops with
  | (es, st, some e) => return (es, (st, some e), none)
  | (es, st, none) =>
    match s.sel with
    | none => return (es, (st, none), s.default)
    | some (ks, cs) => do
      let key ← buildKey st.phv (pkt.mem.drop st.pos) ks
      return (es, (st, none), ← choose key s.default cs)

/-- The loop of `Parser::parse`.  `/repo/src/bm_sim/parser.cpp:1137-1152`. -/
def parseLoop (rz : Bool) (states : List PState) (pkt : Parse.Pkt) : Nat → Option Nat → St →
    Option (List Ev × Option Res)
  | _, none, st => some ([], some (st, none))
  | 0, some _, _ => some ([], none)
  | fuel + 1, some s, st => do
    match ← stateEvents rz pkt st (← states[s]?) with
    | (es, (st, some e), _) => return (es, some (st, some e))
    | (es, (st, none), next) => do
      let (es', r) ← parseLoop rz states pkt fuel next st
      return (es ++ es', r)

/-- `Parser::parse`: without an initial state it returns before the end is reported.
`/repo/src/bm_sim/parser.cpp:1122-1160`. -/
def parser (rz : Bool) (states : List PState) (init : Option Nat) (id : Int) (data : Bytes) (trunc fuel : Nat)
    (phv : Phv) : Option (List Ev × Option (Res × Bytes)) := do
  match init with
  | none => return ([.parserStart id], some ((⟨phv, 0, []⟩, none), data))
  | some s => do
    match ← parseLoop rz states ⟨data, min data.length trunc⟩ fuel (some s) ⟨phv, 0, []⟩ with
    | (es, none) => return (.parserStart id :: es, none)
    | (es, some (st, e)) =>
      if st.pos ≤ data.length then
        return (.parserStart id :: es ++ [.parserDone id], some ((st, e), data.drop st.pos))
      else none

/-! ## Deparsers -/

/-- A checksum: its number, its condition, the update.  `/repo/include/bm/bm_sim/checksums.h`. -/
structure Sum where
  id : Int
  met : Phv → Option Bool
  update : Phv → Option Phv

/-- `update_checksums`: the report does not depend on the condition.  `/repo/src/bm_sim/deparser.cpp:94-100`,
`/repo/src/bm_sim/checksums.cpp:84-96`. -/
def updateSums : List Sum → Phv → Option (List Ev × Phv)
  | [], p => some ([], p)
  | c :: cs, p => do
    let p ← if ← c.met p then c.update p else some p
    let (es, p) ← updateSums cs p
    return (.checksum c.id :: es, p)

/-- The loop over the headers, with what is reported: `data` is the part of the buffer not written yet.
`/repo/src/bm_sim/deparser.cpp:78-86`. -/
def emitEvents (p : Phv) : List Nat → Bytes → Option (List Ev × Bytes)
  | [], data => some ([], data)
  | h :: hs, data => do
    let hd ← p.headers[h]?
    if hd.isValid then
      let data ← hd.deparse data
      let (es, rest) ← emitEvents p hs (data.drop hd.nbytesPacket)
      return (.emit h :: es, data.take hd.nbytesPacket ++ rest)
    else emitEvents p hs data

/-- `Deparser::deparse`.  The space is reserved before the method calls (`calls`), and the headers are written after
them.  `/repo/src/bm_sim/deparser.cpp:56-92`. -/
def deparser (id : Int) (cs : List Sum) (calls : Phv → Option Phv) (order : List Nat) (p : Phv) (room payload : Bytes) :
    Option (List Ev × Phv × Bytes) := do
  let (es, p) ← updateSums cs p
  let n ← headersSize p order
  if n ≤ room.length then
    let p ← calls p
    let (es', out) ← emitEvents p order (room.drop (room.length - n) ++ payload)
    return (.deparserStart id :: es ++ (es' ++ [.deparserDone id]), p, out)
  else none

end

end Bm.Elog
