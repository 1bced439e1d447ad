/-!
# Command line options

`/repo/src/bm_sim/options_parse.cpp`, and what `SwitchWContexts::init_from_options_parser` makes of them
(`/repo/src/bm_sim/switch.cpp:211-323`).

Simplifications:
- boost splits the command line: the input is the list of options with their values, which have the type declared (texts or numbers in
  the range of the type); positional arguments are `input` (the first) and `further`; `--pcap` without
  directory has the value `.`.
- All parts of the program are compiled in (nanomsg, Thrift, debugger); messages on the console are left out.
- `isDir` says which directories exist.  The program is loaded and the ports are added without errors.
-/

namespace Bm.Options

/-- The options the code mentions.  The last two are looked for but not declared. -/
inductive Opt
  | help | interface | pcap | useFiles | packetIn | thriftPort | deviceId | nanolog | logConsole | logFile | logLevel | logFlush
  | logFileMaxSize | logFileMaxFiles | notificationsAddr | debugger | debuggerAddr | restoreState | dumpPacketData | version | jsonVersion
  | noP4 | maxPortCount | input | further | warnOnInvalidHdrRead | retZeroOnInvalidHdrRead
  deriving DecidableEq, Repr

abbrev Str := List Char

/-- The value of an option. -/
inductive Val
  | none
  | text (s : Str)
  | num (n : Int)
  deriving DecidableEq, Repr

abbrev Args := List (Opt × Val)

/-- In `description` or `hidden`.  `/repo/src/bm_sim/options_parse.cpp:83-160`. -/
def Opt.declared : Opt → Bool
  | .warnOnInvalidHdrRead => false
  | .retZeroOnInvalidHdrRead => false
  | _ => true

/-- Options which may be given more than once: values are vectors.  `/repo/src/bm_sim/options_parse.cpp:86,160`. -/
def Opt.composing : Opt → Bool
  | .interface => true
  | .further => true
  | _ => false

/-- `isspace`. -/
def isSpace (c : Char) : Bool := [' ', '\t', '\n', '\x0b', '\x0c', '\r'].contains c

/-- A sign in front: is it a minus, and what follows. -/
def sign : Str → Bool × Str
  | '-' :: t => (true, t)
  | '+' :: t => (false, t)
  | t => (false, t)

/-- `std::stoi` in base 10: blanks, a sign, digits; what follows is not looked at; `none` = it throws. -/
def stoi (t : Str) : Option Int :=
  let t := t.dropWhile isSpace
  let neg := (sign t).1
  let ds := (sign t).2.takeWhile Char.isDigit
  if ds.isEmpty then none
  else
    let v : Int := (ds.foldl (fun a c => a * 10 + (c.toNat - 48)) 0 : Nat)
    let v := if neg then -v else v
    if -2 ^ 31 ≤ v ∧ v ≤ 2 ^ 31 - 1 then some v else none

/-- `validate` for interfaces.  `/repo/src/bm_sim/options_parse.cpp:41-71`. -/
def readIface (s : Str) : Option (Nat × Str) :=
  let tok := s.takeWhile (· != '@')
  match stoi tok with
  | none => none
  | some port =>
    if tok = s then none
    else
      let rest := (s.dropWhile (· != '@')).drop 1
      some ((port % 2 ^ 32).toNat, rest.takeWhile (· != '\n'))

/-- `InterfaceList::add`: `std::map::operator[]`.  `/repo/include/bm/bm_sim/options_parse.h:30-50`. -/
def ifaceAdd (p : Nat) (n : Str) : List (Nat × Str) → List (Nat × Str)
  | [] => [(p, n)]
  | (q, m) :: l => if p < q then (p, n) :: (q, m) :: l else if p = q then (p, n) :: l else (q, m) :: ifaceAdd p n l

/-- `vm.count`. -/
def count (a : Args) (o : Opt) : Bool := a.any (fun x => x.1 = o)

/-- `vm[o].as<std::string>()`. -/
def text? (a : Args) (o : Opt) : Option Str :=
  match a.find? (fun x => x.1 = o) with
  | some (_, .text s) => some s
  | _ => none

/-- `vm[o].as<int>()` and the like. -/
def num? (a : Args) (o : Opt) : Option Int :=
  match a.find? (fun x => x.1 = o) with
  | some (_, .num n) => some n
  | _ => none

/-- All texts of a composing option. -/
def texts (a : Args) (o : Opt) : List Str :=
  a.filterMap (fun x => if x.1 = o then match x.2 with | .text s => some s | _ => none else none)

/-- `po::store` and `po::notify`: `false` = an exception.  `/repo/src/bm_sim/options_parse.cpp:176-195`. -/
def store (a : Args) : Bool :=
  a.all (fun x => x.1.declared && (x.1.composing || a.countP (fun y => y.1 = x.1) ≤ 1)) &&
    (texts a .interface).all (fun t => (readIface t).isSome)

/-- `Logger::LogLevel`.  `/repo/include/bm/bm_sim/logger.h:55-57`. -/
inductive Level
  | trace | debug | info | notice | warn | error | critical | alert | emerg | off
  deriving DecidableEq, Repr

/-- `OptionsParser`.  `/repo/include/bm/bm_sim/options_parse.h:56-97`. -/
structure Parsed where
  config : Str := []
  noP4 : Bool := false
  ifaces : List (Nat × Str) := []
  pcap : Bool := false
  pcapDir : Str := []
  thriftPort : Int := 0
  deviceId : Int := 0
  useFiles : Bool := false
  waitTime : Int := 0
  packetIn : Bool := false
  packetInAddr : Str := []
  eventLogger : Str := []
  fileLogger : Str := []
  console : Bool := false
  logLevel : Level := .trace
  logFlush : Bool := false
  logMaxSize : Int := 1024 * 1024 * 5
  logMaxFiles : Int := 3
  notifications : Str := []
  debugger : Bool := false
  debuggerAddr : Str := []
  stateFile : Str := []
  dump : Int := 0
  maxPorts : Int := 512
  provided : List Opt := []
  warnInvalid : Bool := false
  retZero : Bool := false
  /-- What the parser of the target got. -/
  target : Option (List Str) := none
  deriving DecidableEq, Repr

/-- How `parse` ends. -/
inductive Out
  | exit (code : Nat)
  | ok (p : Parsed)
  deriving DecidableEq, Repr

/-- `levels_map`.  `/repo/src/bm_sim/options_parse.cpp:293-299`. -/
def levels : List (Str × Level) :=
  [(['t', 'r', 'a', 'c', 'e'], .trace), (['d', 'e', 'b', 'u', 'g'], .debug), (['i', 'n', 'f', 'o'], .info), (['w', 'a', 'r', 'n'], .warn),
   (['e', 'r', 'r', 'o', 'r'], .error), (['o', 'f', 'f'], .off)]

/-- Ends in `.json`: the part from the last dot on is `.json`.  `/repo/src/bm_sim/options_parse.cpp:236-238`. -/
def hasJson (path : Str) : Bool := ['.', 'j', 's', 'o', 'n'].isSuffixOf path

/-- `"ipc:///tmp/bmv2-" + std::to_string(id) + tail`.  `/repo/src/bm_sim/options_parse.cpp:258-259,398-399`. -/
def ipcAddr (id : Int) (tail : String) : Str := "ipc:///tmp/bmv2-".toList ++ (toString id).toList ++ tail.toList

/-- The interfaces of the command line.  `/repo/src/bm_sim/options_parse.cpp:358-362`. -/
def readIfaces (ts : List Str) : List (Nat × Str) :=
  ts.foldl (fun l t => match readIface t with | some (p, n) => ifaceAdd p n l | none => l) []

/-- What goes to the parser of the target.  `/repo/src/bm_sim/options_parse.cpp:182-184,232-245`. -/
def furtherArgs (a : Args) : List Str :=
  match count a .noP4, text? a .input with
  | true, some path =>
    let isPos := path.length > 2 && path.take 2 != ['-', '-']
    if !isPos || !hasJson path then path :: texts a .further else texts a .further
  | _, _ => texts a .further

/-- Options with default values, which are in `vm` always.  `/repo/src/bm_sim/options_parse.cpp:90,150-151`. -/
def defaulted : List Opt := [.pcap, .maxPortCount]

/-- The level: `none` = unknown.  `/repo/include/bm/bm_sim/options_parse.h:80`, `/repo/src/bm_sim/options_parse.cpp:291-306`. -/
def levelOf (a : Args) : Option Level :=
  match text? a .logLevel with
  | none => some .trace
  | some l => levels.lookup l

/-- `OptionsParser::parse`; `tp`: there is a parser of the target.  `/repo/src/bm_sim/options_parse.cpp:76-437`. -/
def parse (isDir : Str → Bool) (tp : Bool) (a : Args) : Out :=
  if !store a then .exit 1
  else if count a .help then .exit 0
  else if count a .version then .exit 0
  else if count a .jsonVersion then .exit 0
  else if !count a .noP4 && !count a .input then .exit 1
  else if count a .logConsole && count a .logFile then .exit 1
  else
    match levelOf a with
    | none => .exit 1
    | some level =>
      if count a .logFileMaxSize && count a .logFile && num? a .logFileMaxSize = some 0 then .exit 1
      else
        let dir := (text? a .pcap).getD []
        if !dir.isEmpty && !isDir dir then .exit 1
        else if count a .useFiles && count a .packetIn then .exit 1
        else if (num? a .maxPortCount).getD 512 < 0 then .exit 1
        else
          let id := (num? a .deviceId).getD 0
          .ok
            { config := if count a .noP4 then [] else (text? a .input).getD []
              noP4 := count a .noP4
              ifaces := if count a .packetIn then [] else readIfaces (texts a .interface)
              pcap := !dir.isEmpty
              pcapDir := dir
              thriftPort := (num? a .thriftPort).getD 9090
              deviceId := id
              useFiles := count a .useFiles
              waitTime := let w := (num? a .useFiles).getD 0; if w < 0 then 0 else w
              packetIn := count a .packetIn
              packetInAddr := (text? a .packetIn).getD []
              eventLogger := (text? a .nanolog).getD []
              fileLogger := (text? a .logFile).getD []
              console := count a .logConsole
              logLevel := level
              logFlush := count a .logFlush && count a .logFile
              logMaxSize := if count a .logFile then (num? a .logFileMaxSize).getD (1024 * 1024 * 5) else 1024 * 1024 * 5
              logMaxFiles := if count a .logFile then (num? a .logFileMaxFiles).getD 3 else 3
              notifications := (text? a .notificationsAddr).getD (ipcAddr id "-notifications.ipc")
              debugger := count a .debuggerAddr || count a .debugger
              debuggerAddr := if count a .debuggerAddr then (text? a .debuggerAddr).getD []
                else if count a .debugger then ipcAddr id "-debug.ipc" else []
              stateFile := (text? a .restoreState).getD []
              dump := (num? a .dumpPacketData).getD 0
              maxPorts := (num? a .maxPortCount).getD 512
              provided := defaulted ++ a.map Prod.fst
              warnInvalid := count a .warnOnInvalidHdrRead
              retZero := count a .retZeroOnInvalidHdrRead
              target := if tp then some (furtherArgs a) else none }

/-- `option_was_provided`.  `/repo/src/bm_sim/options_parse.cpp:444-447`. -/
def Parsed.wasProvided (p : Parsed) (o : Opt) : Bool := p.provided.contains o

/-! ## What the switch does with them -/

/-- `operator/` of paths.  An absolute right side replaces the left one. -/
def pathJoin (d f : Str) : Str :=
  match f with
  | '/' :: _ => f
  | _ => if d.isEmpty || d.getLast? = some '/' then d ++ f else d ++ '/' :: f

/-- The device manager. -/
inductive Mgr
  | files (wait : Int)
  | packetIn (id : Int) (addr : Str)
  | bmi (id : Int) (maxPorts : Int)
  deriving DecidableEq, Repr

/-- What the switch does, in order. -/
inductive Eff
  | debugger (addr : Str) (id : Int)
  | logConsole
  | logFile (file : Str) (flush : Bool) (size files : Int)
  | logLevel (l : Level)
  | load (config : Option Str) (id : Int)
  | mgr (m : Mgr)
  | port (p : Nat) (name : Str) (inFile outFile : Option Str)
  | restore (file : Str)
  deriving DecidableEq, Repr

/-- The files of an interface.  `/repo/src/bm_sim/switch.cpp:275-302`. -/
def portEff (o : Parsed) (x : Nat × Str) : Eff :=
  let fin := x.2 ++ "_in.pcap".toList
  let fout := x.2 ++ "_out.pcap".toList
  if o.useFiles then .port x.1 x.2 (some fin) (some fout)
  else if o.pcap then .port x.1 x.2 (some (pathJoin o.pcapDir fin)) (some (pathJoin o.pcapDir fout))
  else .port x.1 x.2 none none

/-- `init_from_options_parser` of a switch made just before (its `device_id` is 0).  `/repo/src/bm_sim/switch.cpp:211-323`. -/
def init (o : Parsed) : List Eff :=
  (if o.debugger then [.debugger o.debuggerAddr 0] else []) ++
  (if o.console then [.logConsole] else []) ++
  (if o.fileLogger ≠ [] then [.logFile o.fileLogger o.logFlush o.logMaxSize o.logMaxFiles] else []) ++
  [.logLevel o.logLevel] ++
  [.load (if o.noP4 then none else some o.config) o.deviceId] ++
  [.mgr (if o.useFiles then .files o.waitTime else if o.packetIn then .packetIn o.deviceId o.packetInAddr
    else .bmi o.deviceId o.maxPorts)] ++
  o.ifaces.map (portEff o) ++
  (if o.stateFile ≠ [] then [.restore o.stateFile] else [])

end Bm.Options
