import Verif.Model.Options

/-!
# Options of the target

`TargetParserBasic` (`/repo/src/bm_sim/target_parser.cpp`) and what `main` of `simple_switch` makes of it
(`/repo/targets/simple_switch/main.cpp:33-134`).

Simplifications:
- boost splits the arguments: the input is the list of options (names completed by boost when abbreviated) with the texts of their values,
  arguments without name, and places where boost cannot go on (an empty value after `=` and the like).
- `parse` is called once per parser, as `OptionsParser::parse` does.
- Messages are left out; `dlopen` may succeed or fail, the names it is called with are kept.
-/

namespace Bm.TargetOpts

open Bm.Options (Str sign)

/-- The types of options.  `/repo/src/bm_sim/target_parser.cpp:129-151`. -/
inductive Ty
  | str | int | uint | flag
  deriving DecidableEq, Repr

/-- What boost keeps for an option (`boost::any`); `empty`: the entry was made, but no value was put into it. -/
inductive Val
  | empty
  | str (s : Str)
  | int (i : Int)
  | uint (n : Nat)
  deriving DecidableEq, Repr

/-- `TargetParserBasic::ReturnCode` except `SUCCESS`.  `/repo/include/bm/bm_sim/target_parser.h:55-66`. -/
inductive Rc
  | duplicate | invalidName | notProvided | invalidType
  deriving DecidableEq, Repr

/-- `option_names` and `description`.  `/repo/src/bm_sim/target_parser.cpp:85-88`. -/
abbrev Opts := List (Str × Ty)

/-- `vm`, a `std::map`.  `/repo/src/bm_sim/target_parser.cpp:89`. -/
abbrev Vm := List (Str × Val)

/-- `add_option`.  `/repo/src/bm_sim/target_parser.cpp:37-43,92-100`. -/
def add (o : Opts) (ty : Ty) (name : Str) : Except Rc Opts :=
  if (o.lookup name).isSome then .error .duplicate else .ok (o ++ [(name, ty)])

/-- The argument which boost found. -/
inductive Tok
  | named (name : Str) (value : Option Str)
  | pos (s : Str)
  | bad
  deriving DecidableEq, Repr

/-- Checks of boost's command line parser, before any value is stored: the option is known, flags have no value, others have one.
`/repo/src/bm_sim/target_parser.cpp:47-49` (`run`). -/
def okTok (o : Opts) : Tok → Bool
  | .named n v =>
    match o.lookup n with
    | none => false
    | some .flag => v.isNone
    | some _ => v.isSome
  | .pos _ => true
  | .bad => false

/-- The digits of a number: all characters must be digits. -/
def decimal (ds : Str) : Option Nat :=
  if ds.isEmpty || !ds.all Char.isDigit then none else some (ds.foldl (fun a c => a * 10 + (c.toNat - 48)) 0)

/-- `boost::lexical_cast<unsigned>`: a minus is taken and the result is negated modulo 2^32. -/
def lexUint (t : Str) : Option Nat :=
  match decimal (sign t).2 with
  | none => none
  | some v => if 2 ^ 32 ≤ v then none else some (if (sign t).1 then (2 ^ 32 - v) % 2 ^ 32 else v)

/-- `boost::lexical_cast<int>`. -/
def lexInt (t : Str) : Option Int :=
  match decimal (sign t).2 with
  | none => none
  | some v =>
    if (sign t).1 then (if v ≤ 2 ^ 31 then some (-(v : Int)) else none)
    else if v < 2 ^ 31 then some (v : Int) else none

/-- `validate` of boost: the value of an option with its type.  Flags keep an empty text. -/
def conv : Ty → Option Str → Option Val
  | .str, some t => some (.str t)
  | .int, some t => (lexInt t).map .int
  | .uint, some t => (lexUint t).map .uint
  | .flag, none => some (.str [])
  | _, _ => none

/-- `po::store`: one option after the other; the entry is made before the value is read; a second value is an error; arguments without
name are skipped.  The first part says whether it went through.  `/repo/src/bm_sim/target_parser.cpp:49`. -/
def store (o : Opts) : Vm → List Tok → Bool × Vm
  | vm, [] => (true, vm)
  | vm, .named n v :: r =>
    match o.lookup n with
    | none => (false, vm)
    | some ty =>
      if (vm.lookup n).isSome then (false, vm)
      else
        match conv ty v with
        | none => (false, vm ++ [(n, .empty)])
        | some x => store o (vm ++ [(n, x)]) r
  | vm, .pos _ :: r => store o vm r
  | vm, .bad :: _ => (false, vm)

/-- `TargetParserBasicStore::parse`: the code returned and `vm`.  `/repo/src/bm_sim/target_parser.cpp:45-57,118-122`. -/
def parse (o : Opts) (ts : List Tok) : Nat × Vm :=
  if ts.all (okTok o) then
    match store o [] ts with
    | (true, vm) => (0, vm)
    | (false, vm) => (1, vm)
  else (1, [])

/-- The value has the type asked for. -/
def Val.is : Val → Ty → Bool
  | .str _, .str => true
  | .int _, .int => true
  | .uint _, .uint => true
  | _, _ => false

/-- `get_option` for texts and numbers.  `/repo/src/bm_sim/target_parser.cpp:59-70,153-167`. -/
def get (o : Opts) (vm : Vm) (ty : Ty) (name : Str) : Except Rc Val :=
  if (o.lookup name).isNone then .error .invalidName
  else
    match vm.lookup name with
    | none => .error .notProvided
    | some v => if v.is ty then .ok v else .error .invalidType

/-- `get_option<bool>`.  `/repo/src/bm_sim/target_parser.cpp:102-109,169-172`. -/
def getFlag (o : Opts) (vm : Vm) (name : Str) : Except Rc Bool :=
  if (o.lookup name).isNone then .error .invalidName else .ok (vm.lookup name).isSome

/-- `std::getline` with `,` until the end of the text. -/
def splitComma : Str → List Str
  | [] => []
  | c :: r =>
    if c = ',' then [] :: splitComma r
    else
      match splitComma r with
      | [] => [[c]]
      | w :: ws => (c :: w) :: ws

/-- `load_modules`: the names `dlopen` is called with, in order.  `/repo/src/bm_sim/target_parser.cpp:197-221`. -/
def loadModules (o : Opts) (vm : Vm) : Except Nat (List Str) :=
  match get o vm .str "load-modules".toList with
  | .error .notProvided => .ok []
  | .ok (.str s) => .ok (splitComma s)
  | _ => .error 1

/-- `TargetParserBasicWithDynModules::parse`, modules enabled: the code, `vm`, the modules.
`/repo/src/bm_sim/target_parser.cpp:185-195`. -/
def parseDyn (o : Opts) (ts : List Tok) : Nat × Vm × List Str :=
  match parse o ts with
  | (0, vm) =>
    match loadModules o vm with
    | .ok ms => (0, vm, ms)
    | .error e => (e, vm, [])
  | (e, vm) => (e, vm, [])

/-- The options of `simple_switch`.  `/repo/targets/simple_switch/main.cpp:35-56`, `/repo/src/bm_sim/target_parser.cpp:174-181`. -/
def switchOpts : Opts :=
  [("load-modules".toList, .str), ("enable-swap".toList, .flag), ("drop-port".toList, .uint), ("priority-queues".toList, .uint),
   ("max-mc-groups".toList, .uint), ("max-l1-entries".toList, .uint), ("max-l2-entries".toList, .uint)]

/-- What the switch is made with.  `/repo/targets/simple_switch/main.cpp:131-134`. -/
structure Settings where
  swap : Bool
  dropPort : Nat
  queues : Nat
  groups : Nat
  l1 : Nat
  l2 : Nat
  modules : List Str
  deriving DecidableEq, Repr

/-- A number or its default; `none` = `exit(1)`.  `/repo/targets/simple_switch/main.cpp:67-84`. -/
def uintOr (vm : Vm) (name : Str) (d : Nat) : Option Nat :=
  match get switchOpts vm .uint name with
  | .ok (.uint n) => some n
  | .error .notProvided => some d
  | _ => none

/-- A number which must fit into a positive `int`.  `/repo/targets/simple_switch/main.cpp:86-129`. -/
def limitOr (vm : Vm) (name : Str) (d : Nat) : Option Nat :=
  match uintOr vm name d with
  | none => none
  | some n => if n = 0 ∨ n > 2 ^ 31 - 1 then none else some n

/-- `main` up to the construction of the switch; `none` = `exit(1)`.  The code returned by the parser is only reported
(`/repo/src/bm_sim/options_parse.cpp:428-433`).  `/repo/targets/simple_switch/main.cpp:33-134`. -/
def start (ts : List Tok) : Option Settings :=
  let (_, vm, ms) := parseDyn switchOpts ts
  match getFlag switchOpts vm "enable-swap".toList with
  | .error _ => none
  | .ok swap => do
    let dropPort ← uintOr vm "drop-port".toList 511
    let queues ← uintOr vm "priority-queues".toList 1
    let groups ← limitOr vm "max-mc-groups".toList 4096
    let l1 ← limitOr vm "max-l1-entries".toList 4096
    let l2 ← limitOr vm "max-l2-entries".toList 8192
    return { swap, dropPort, queues, groups, l1, l2, modules := ms }

/-- The switch takes a packet with this priority; otherwise it drops it.  `/repo/targets/simple_switch/simple_switch.cpp:403-410`. -/
def takes (s : Settings) (priority : Nat) : Bool := decide (priority < s.queues)

end Bm.TargetOpts
