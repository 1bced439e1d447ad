import Verif.Model.Phv

/-!
# Model of replaying and writing capture files

`PcapFileIn`, `PcapFilesReader` and `PcapFilesWriter`.

* A file is the list of records the capture library will return; `none` is a reading error.
* The clock is a parameter (`Env`): what `gettimeofday` says at each round of the loop, and when a sleep ends.
* `pcap_fatal_error` ends the program (`exited`); a failed assertion is `aborted`.
* A packet handler is set (the device manager sets it before it starts the reader).
-/

namespace Bm.Pcap

/-- `struct timeval`.  `/repo/include/bm/bm_sim/pcap_file.h:49`. -/
structure TV where
  sec : Int
  usec : Int
  deriving Repr, DecidableEq

/-- `timercmp(a, b, <)` of `sys/time.h`.  `/repo/src/bm_sim/pcap_file.cpp:200,295`. -/
def tvLt (a b : TV) : Bool := if a.sec = b.sec then decide (a.usec < b.usec) else decide (a.sec < b.sec)

/-- `timercmp(a, b, <=)` of `sys/time.h`.  `/repo/src/bm_sim/pcap_file.cpp:255`. -/
def tvLe (a b : TV) : Bool := if a.sec = b.sec then decide (a.usec ≤ b.usec) else decide (a.sec ≤ b.sec)

/-- `timersub` of `sys/time.h`.  `/repo/src/bm_sim/pcap_file.cpp:215-223`. -/
def tvSub (a b : TV) : TV :=
  if a.usec - b.usec < 0 then ⟨a.sec - b.sec - 1, a.usec - b.usec + 1000000⟩
  else ⟨a.sec - b.sec, a.usec - b.usec⟩

/-- A record of a capture: the header (`ts`, `caplen`, `len`) and the bytes.
`/repo/include/bm/bm_sim/pcap_file.h:27-51`. -/
structure Rec where
  ts : TV
  caplen : Nat
  len : Nat
  data : Bytes
  deriving Repr, DecidableEq

/-- `PcapFileIn::State`, with the current packet; a file is opened when it is constructed.
`/repo/include/bm/bm_sim/pcap_file.h:84-91`, `/repo/src/bm_sim/pcap_file.cpp:53-92`. -/
inductive FState
  | opened
  | reading (r : Rec)
  | atEnd
  deriving Repr, DecidableEq

/-- `PcapFileIn`: port, what is left to read, state.  `/repo/include/bm/bm_sim/pcap_file.h:53-99`. -/
structure File where
  port : Nat
  rest : List (Option Rec)
  st : FState
  deriving Repr, DecidableEq

/-- `moveNext` and `advance`: the file, and whether there is a packet; `none` is the end of the program.
`/repo/src/bm_sim/pcap_file.cpp:94-131`. -/
def File.moveNext (f : File) : Option (File × Bool) :=
  match f.st, f.rest with
  | .atEnd, _ => some (f, false)
  | _, [] => some ({ f with st := .atEnd }, false)
  | _, none :: _ => none
  | _, some r :: t => if r.caplen ≠ r.len then none else some ({ f with rest := t, st := .reading r }, true)

/-- `current`; `none` is the end of the program.  `/repo/src/bm_sim/pcap_file.cpp:133-153`. -/
def File.current (f : File) : Option Rec :=
  match f.st with
  | .reading r => some r
  | _ => none

/-- `atEOF`.  `/repo/src/bm_sim/pcap_file.cpp:155-157`. -/
def File.atEOF (f : File) : Bool := decide (f.st = .atEnd)

/-- What is known of the clock: the time at round `k` of the loop, and the time when the sleep of round `k`
(seconds and microseconds) is over. -/
structure Env where
  now : Nat → TV
  wake : Nat → TV → TV

/-- `PcapFilesReader`.  `/repo/include/bm/bm_sim/pcap_file.h:142-168`. -/
structure Reader where
  files : List File
  nonEmpty : Nat
  respectTiming : Bool
  startTime : TV
  firstPacketTime : TV
  deriving Repr, DecidableEq

/-- A call of the packet handler: the file it comes from, port, bytes and length, and the time (if timing is
respected).  `/repo/src/bm_sim/pcap_file.cpp:238-244`. -/
structure Sent where
  idx : Nat
  port : Nat
  data : Bytes
  len : Nat
  at' : Option TV
  deriving Repr, DecidableEq

/-- The comparison in the loop over the files.  `/repo/src/bm_sim/pcap_file.cpp:195-204`. -/
def better (acc : Option (Nat × TV)) (i : Nat) (t : TV) : Option (Nat × TV) :=
  match acc with
  | none => some (i, t)
  | some (j, u) => if tvLt t u then some (i, t) else some (j, u)

/-- The loop over the files that looks for the earliest packet.  `/repo/src/bm_sim/pcap_file.cpp:187-207`. -/
def pick : List File → Nat → Option (Nat × TV) → Option (Option (Nat × TV))
  | [], _, acc => some acc
  | f :: fs, i, acc =>
    if f.atEOF then pick fs (i + 1) acc
    else do
      let r ← f.current
      pick fs (i + 1) (better acc i r.ts)

/-- The delay of a packet.  `/repo/src/bm_sim/pcap_file.cpp:213-230`. -/
def delay (rd : Reader) (now t : TV) : TV :=
  if rd.respectTiming then tvSub (tvSub t rd.firstPacketTime) (tvSub now rd.startTime) else ⟨0, 0⟩

/-- When the packet is given to the handler: at once, or after a sleep.
`/repo/src/bm_sim/pcap_file.cpp:252-266`. -/
def sendTime (env : Env) (k : Nat) (d : TV) : TV :=
  if tvLe d ⟨0, 0⟩ then env.now k else env.wake k d

/-- How the reader ended. -/
inductive End
  /-- all packets were read -/
  | done
  /-- `pcap_fatal_error` -/
  | exited
  /-- an assertion failed -/
  | aborted
  /-- it is still running -/
  | running
  deriving Repr, DecidableEq

/-- `timerFired`: the packet sent, and the reader, unless the program ended after sending.
`/repo/src/bm_sim/pcap_file.cpp:237-249`. -/
def fire (rd : Reader) (i : Nat) (at' : Option TV) : Option (Sent × Option Reader) := do
  let f ← rd.files[i]?
  let r ← f.current
  let s : Sent := ⟨i, f.port, r.data, r.len, at'⟩
  match f.moveNext with
  | none => return (s, none)
  | some (f', ok) =>
    return (s, some { rd with files := rd.files.set i f'
                              nonEmpty := if ok then rd.nonEmpty else rd.nonEmpty - 1 })

/-- `scan` for `fuel` rounds; `k` is the number of the round.  `/repo/src/bm_sim/pcap_file.cpp:178-234`. -/
def scan (env : Env) : Nat → Nat → Reader → List Sent × End
  | 0, _, _ => ([], .running)
  | fuel + 1, k, rd =>
    if rd.nonEmpty = 0 then ([], .done)
    else
      match pick rd.files 0 none with
      | none => ([], .exited)
      | some none => ([], .aborted)
      | some (some (i, t)) =>
        match fire rd i (if rd.respectTiming then some (sendTime env k (delay rd (env.now k) t)) else none) with
        | none => ([], .exited)
        | some (s, none) => ([s], .exited)
        | some (s, some rd') =>
          let r := scan env fuel (k + 1) rd'
          (s :: r.1, r.2)

/-- The comparison in the loop of `start`.  `/repo/src/bm_sim/pcap_file.cpp:293-296`. -/
def firstOf (acc : Option TV) (t : TV) : TV :=
  match acc with
  | none => t
  | some u => if tvLt t u then t else u

/-- The loop of `start` over the files: the files, the number of those that have a packet, and the time of the
first packet.  `/repo/src/bm_sim/pcap_file.cpp:286-298`. -/
def startFiles : List File → Nat → Option TV → Option (List File × Nat × Option TV)
  | [], n, t => some ([], n, t)
  | f :: fs, n, t => do
    let (f', ok) ← f.moveNext
    if ok then
      let r ← f'.current
      let (fs', n', t') ← startFiles fs (n + 1) (some (firstOf t r.ts))
      return (f' :: fs', n', t')
    else
      let (fs', n', t') ← startFiles fs n t
      return (f' :: fs', n', t')

/-- `start`, for files as they were added; `started` is the time after the waiting.
`/repo/src/bm_sim/pcap_file.cpp:269-313`. -/
def start (env : Env) (respectTiming : Bool) (started : TV) (fuel : Nat) (files : List File) :
    List Sent × End :=
  match startFiles files 0 none with
  | none => ([], .exited)
  | some (fs, n, t) => scan env fuel 0 ⟨fs, n, respectTiming, started, t.getD ⟨0, 0⟩⟩

/-- `addFile` of the reader.  `/repo/src/bm_sim/pcap_file.cpp:171-175`. -/
def newFile (port : Nat) (recs : List (Option Rec)) : File := ⟨port, recs, .opened⟩

/-! ### Writing -/

/-- `PcapFilesWriter`: the files in the order in which they were created, each with its port (`none` if it was
closed at once, because the port had a file) and what was written.
`/repo/include/bm/bm_sim/pcap_file.h:170-184`. -/
abbrev Writer := List (Option Nat × List Bytes)

/-- The file of a port. -/
def Writer.has (w : Writer) (port : Nat) : Bool := w.any (fun x => x.1 == some port)

/-- `addFile` of the writer: the file is created, and `emplace` destroys it if the port has one.
`/repo/src/bm_sim/pcap_file.cpp:364-368`. -/
def Writer.add (w : Writer) (port : Nat) : Writer :=
  w ++ [(if w.has port then none else some port, [])]

/-- `send_packet`.  `/repo/src/bm_sim/pcap_file.cpp:340-350,371-383`. -/
def Writer.send (w : Writer) (port : Nat) (data : Bytes) : Writer :=
  w.map fun x => if x.1 = some port then (x.1, x.2 ++ [data]) else x

/-- Calls of the writer. -/
inductive WOp
  | add (port : Nat)
  | send (port : Nat) (data : Bytes)
  deriving Repr, DecidableEq

/-- Calls one after the other. -/
def Writer.run (w : Writer) : List WOp → Writer
  | [] => w
  | .add p :: os => (w.add p).run os
  | .send p d :: os => (w.send p d).run os

end Bm.Pcap
