import Verif.Model.Parser

/-!
# Errors and enums of a program

`/repo/src/bm_sim/parser_error.cpp`, `/repo/src/bm_sim/enums.cpp`, `/repo/include/bm/bm_sim/{parser_error,enums}.h`,
`/repo/src/bm_sim/P4Objects.cpp:616-634,892-903,1068-1086`, `/repo/src/bm_sim/parser.cpp:1095-1149`.

Simplifications:
- Maps are lists of pairs, the first pair with a key counts.  The order is not observed (only the largest key is asked for).
- `int` has 32 bits.  A number of the JSON file is any integer, `asInt` throws when it does not fit; the exception is not a
  `json_exception` and leaves `init_objects` (`/repo/src/bm_sim/P4Objects.cpp:2284-2287`).
- Names and values have the JSON type expected.
- The parser is that of `Model/Parser`.
-/

namespace Bm.Const

open Bm.Parse (Err Op PState)

/-- Reading a program: done, refused with a message, an exception nobody expects, undefined behaviour. -/
inductive Out (α : Type)
  | ok (a : α)
  | refused
  | thrown
  | ub
  deriving DecidableEq, Repr

/-- `std::numeric_limits<int>::max()`, also `INVALID_V`.  `/repo/include/bm/bm_sim/parser_error.h:51-55`. -/
def intMax : Int := 2 ^ 31 - 1

/-- `Json::Value::isInt`. -/
def isInt (v : Int) : Bool := decide (-2 ^ 31 ≤ v ∧ v ≤ intMax)

/-! ## Errors -/

/-- `ErrorCodeMap`.  `/repo/include/bm/bm_sim/parser_error.h:106-107`. -/
structure ErrMap where
  names : List (Int × String) := []
  values : List (String × Int) := []
  deriving DecidableEq, Repr

/-- `exists(name)`.  `/repo/src/bm_sim/parser_error.cpp:28-31`. -/
def ErrMap.hasName (m : ErrMap) (n : String) : Bool := (m.values.lookup n).isSome

/-- `exists(v)`.  `/repo/src/bm_sim/parser_error.cpp:33-36`. -/
def ErrMap.hasValue (m : ErrMap) (v : Int) : Bool := (m.names.lookup v).isSome

/-- `add`.  `/repo/src/bm_sim/parser_error.cpp:20-26`. -/
def ErrMap.add (m : ErrMap) (n : String) (v : Int) : ErrMap × Bool :=
  if m.hasName n || m.hasValue v then (m, false)
  else (⟨(v, n) :: m.names, (n, v) :: m.values⟩, true)

/-- The largest key.  `/repo/src/bm_sim/parser_error.cpp:40-45`. -/
def maxKey : List (Int × String) → Option Int
  | [] => none
  | p :: l =>
    match maxKey l with
    | none => some p.1
    | some k => some (if k < p.1 then p.1 else k)

/-- The names of the core errors.  `/repo/src/bm_sim/parser_error.cpp:48-50,78-98`. -/
def coreNames : List String :=
  ["NoError", "PacketTooShort", "NoMatch", "StackOutOfBounds", "HeaderTooShort", "ParserTimeout", "ParserInvalidArgument"]

/-- The loop of `add_core`; `none`: overflow of `max_v++`.  `/repo/src/bm_sim/parser_error.cpp:48-53`. -/
def addMissing (m : ErrMap) (next : Int) : List String → Option ErrMap
  | [] => some m
  | n :: ns =>
    if m.hasName n then addMissing m next ns
    else if next = intMax then none
    else addMissing (m.add n next).1 (next + 1) ns

/-- `add_core`; `none`: overflow.  `/repo/src/bm_sim/parser_error.cpp:38-54`. -/
def ErrMap.addCore (m : ErrMap) : Option ErrMap :=
  match maxKey m.names with
  | none => addMissing m 0 coreNames
  | some k => if k = intMax then none else addMissing m (k + 1) coreNames

/-- The loop of `init_errors`.  `/repo/src/bm_sim/P4Objects.cpp:895-901`. -/
def addErrors (m : ErrMap) : List (String × Int) → Out ErrMap
  | [] => .ok m
  | (n, v) :: es =>
    if isInt v then
      if (m.add n v).2 then addErrors (m.add n v).1 es else .refused
    else .thrown

/-- `init_errors`.  `/repo/src/bm_sim/P4Objects.cpp:892-903`. -/
def loadErrors (es : List (String × Int)) : Out ErrMap :=
  match addErrors {} es with
  | .ok m => match m.addCore with | some m => .ok m | none => .ub
  | .refused => .refused
  | .thrown => .thrown
  | .ub => .ub

/-- `from_name`; `none`: `std::out_of_range`.  `/repo/src/bm_sim/parser_error.cpp:56-59`. -/
def ErrMap.fromName (m : ErrMap) (n : String) : Option Int := m.values.lookup n

/-- `to_name`; `none`: `std::out_of_range`.  `/repo/src/bm_sim/parser_error.cpp:66-69`. -/
def ErrMap.toName (m : ErrMap) (v : Int) : Option String := m.names.lookup v

/-- `parser_exception::get`.  `/repo/src/bm_sim/parser_error.cpp:61-64,76-98,103-118`. -/
def code (m : ErrMap) : Err → Option Int
  | .packetTooShort => m.fromName "PacketTooShort"
  | .headerTooShort => m.fromName "HeaderTooShort"
  | .stackOutOfBounds => m.fromName "StackOutOfBounds"
  | .invalidArgument => m.fromName "ParserInvalidArgument"
  | .arch v => some v

/-- The error code of the packet when the loop of the parser ended with `e`; the name is looked up for the message which is always
written; `none`: an exception leaves `parse`.  `/repo/src/bm_sim/parser.cpp:1095-1098,1133,1144-1149`,
`/repo/include/bm/bm_sim/logger.h:148-152`. -/
def packetCode (m : ErrMap) : Option Err → Option Int
  | none => m.fromName "NoError"
  | some e => do
    let v ← code m e
    let _ ← m.toName v
    return v

/-- `Parser::parse`: the error code of the packet; `none`: undefined behaviour or an exception leaves the function; inner `none`: not
finished after `fuel` states.  `/repo/src/bm_sim/parser.cpp:1122-1158`. -/
def parseCode (m : ErrMap) (rz : Bool) (states : List PState) (init : Option Nat) (data : Bytes) (trunc fuel : Nat) (phv : Phv) :
    Option (Option Int) := do
  match ← Parse.parse rz states init data trunc fuel phv with
  | none => return none
  | some ((_, e), _) => return some (← packetCode m e)

/-- The second parameter of `verify`: a number or an expression.  `/repo/src/bm_sim/P4Objects.cpp:1075-1087`. -/
inductive VerifyArg
  | const (v : Int)
  | expr (f : Phv → Option Int)

/-- Building a `verify` operation; a number beyond `int` is taken for an expression, which it is not.
`/repo/src/bm_sim/P4Objects.cpp:1069-1089`. -/
def buildVerify (m : ErrMap) (cond : Phv → Option Bool) : VerifyArg → Out Op
  | .const v =>
    if isInt v then
      if m.hasValue v then .ok (.verify cond (fun _ => some v)) else .refused
    else .thrown
  | .expr f => .ok (.verify cond f)

/-! ## Enums -/

/-- `EnumMap`.  `/repo/include/bm/bm_sim/enums.h:43-46`. -/
structure EnumMap where
  values : List (String × Int) := []
  enums : List (String × List (Int × String)) := []
  deriving DecidableEq, Repr

/-- `add_enum`.  `/repo/src/bm_sim/enums.cpp:16-22`. -/
def EnumMap.addEnum (m : EnumMap) (e : String) : Option EnumMap :=
  if (m.enums.lookup e).isSome then none else some { m with enums := (e, []) :: m.enums }

/-- `add_entry`.  `/repo/src/bm_sim/enums.cpp:24-43`. -/
def EnumMap.addEntry (m : EnumMap) (e n : String) (v : Int) : Option EnumMap :=
  match m.enums.lookup e with
  | none => none
  | some em =>
    if (em.lookup v).isSome then none
    else
      let name := e ++ "." ++ n
      if (m.values.lookup name).isSome then none
      else some ⟨(name, v) :: m.values, (e, (v, name) :: em) :: m.enums⟩

/-- The inner loop of `init_enums`.  `/repo/src/bm_sim/P4Objects.cpp:625-632`. -/
def addEntries (m : EnumMap) (e : String) : List (String × Int) → Out EnumMap
  | [] => .ok m
  | (n, v) :: es =>
    if isInt v then
      match m.addEntry e n v with
      | some m => addEntries m e es
      | none => .refused
    else .thrown

/-- The outer loop.  `/repo/src/bm_sim/P4Objects.cpp:619-633`. -/
def addEnums (m : EnumMap) : List (String × List (String × Int)) → Out EnumMap
  | [] => .ok m
  | (e, es) :: ds =>
    match m.addEnum e with
    | none => .refused
    | some m =>
      match addEntries m e es with
      | .ok m => addEnums m ds
      | .refused => .refused
      | .thrown => .thrown
      | .ub => .ub

/-- `init_enums`.  `/repo/src/bm_sim/P4Objects.cpp:616-634`. -/
def loadEnums (ds : List (String × List (String × Int))) : Out EnumMap := addEnums {} ds

/-- `from_name`; `none`: `std::out_of_range`.  `/repo/src/bm_sim/enums.cpp:45-48`. -/
def EnumMap.fromName (m : EnumMap) (name : String) : Option Int := m.values.lookup name

/-- `to_name`; `none`: `std::out_of_range`.  `/repo/src/bm_sim/enums.cpp:50-54`. -/
def EnumMap.toName (m : EnumMap) (e : String) (v : Int) : Option String := do (← m.enums.lookup e).lookup v

end Bm.Const
