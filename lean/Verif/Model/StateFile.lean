import Verif.Model.Md5

/-!
# The file the state of a switch is saved to

Transcribes `serialize` and `deserialize` of a switch (`/repo/src/bm_sim/switch.cpp:381-433`) on the bytes of the file.  What
the contexts write is given (`texts`), and how they read it (`loads`: what is left of the file, `none` for exceptions);
`Model/Save` is about these.  `isspace` is that of the "C" locale, which the switch does not change.
-/

namespace Bm.StateFile

/-- `isspace` in the "C" locale. -/
def isSpace (x : UInt8) : Bool := x == 32 || (9 ≤ x && x ≤ 13)

/-- `>>` to a string: blanks are skipped, then bytes are read up to the next blank; the string is empty if there are
none. -/
def readString (s : Bytes) : Bytes × Bytes :=
  let s := s.dropWhile isSpace
  (s.takeWhile fun x => !isSpace x, s.dropWhile fun x => !isSpace x)

/-- `serialization_format_version_str`.  `/repo/src/bm_sim/switch.cpp:383`. -/
def version : Bytes := [48, 54, 48, 54, 50, 48, 49, 54, 95, 48]

/-- `get_config_md5_`; `buf` is what the memory of the context held.  `/repo/src/bm_sim/switch.cpp:486-494`. -/
def configMd5 (buf config : Bytes) : Option Bytes := Md5.digest buf [config]

/-- `SwitchWContexts::serialize`; `Context::serialize` never fails.  `/repo/src/bm_sim/switch.cpp:387-398`,
`/repo/src/bm_sim/context.cpp:836-841`. -/
def save (buf config : Bytes) (texts : List Bytes) : Option Bytes := do
  let md5sum ← configMd5 buf config
  return version ++ [10] ++ md5sum ++ [10] ++ texts.flatten

/-- Outcome of reading a state file: refused for its version, refused for its configuration, or read up to the bytes
that are left. -/
inductive Out
  | badVersion
  | badConfig
  | loaded (rest : Bytes)
  deriving DecidableEq, Repr

/-- The loop over the contexts.  `/repo/src/bm_sim/switch.cpp:416-419`. -/
def loadCxts : List (Bytes → Option Bytes) → Bytes → Option Bytes
  | [], s => some s
  | f :: fs, s => do loadCxts fs (← f s)

/-- `SwitchWContexts::deserialize`; `Context::deserialize` never returns an error.  `/repo/src/bm_sim/switch.cpp:402-421`,
`/repo/src/bm_sim/context.cpp:845-853`. -/
def load (buf config : Bytes) (loads : List (Bytes → Option Bytes)) (file : Bytes) : Option Out := do
  let md5sumExpected ← configMd5 buf config
  if (readString file).1 ≠ version then return .badVersion
  else if (readString (readString file).2).1 ≠ md5sumExpected then return .badConfig
  else return .loaded (← loadCxts loads (readString (readString file).2).2)

end Bm.StateFile
