import Verif.Model.Options

/-!
# What the command line says

In terms of the options given, wherever they stand.
-/

namespace Bm.Options.Spec

open Bm.Options (Opt Val Args Str Level)

/-- The option is given. -/
def Given (a : Args) (o : Opt) : Prop := ∃ v, (o, v) ∈ a

/-- The type of the value. -/
inductive Kind
  | flag | text | num
  deriving DecidableEq

/-- The types declared in the help text. -/
def kind : Opt → Kind
  | .help | .logConsole | .logFlush | .debugger | .version | .jsonVersion | .noP4 | .warnOnInvalidHdrRead | .retZeroOnInvalidHdrRead => .flag
  | .useFiles | .thriftPort | .deviceId | .logFileMaxSize | .logFileMaxFiles | .dumpPacketData | .maxPortCount => .num
  | _ => .text

/-- The values have their types. -/
def Typed (a : Args) : Prop := ∀ o v, (o, v) ∈ a →
  (kind o = .flag ∧ v = .none) ∨ (kind o = .text ∧ ∃ s, v = .text s) ∨ (kind o = .num ∧ ∃ n, v = .num n)

/-- `ds` is `v` in decimal. -/
inductive IsDec : Str → Nat → Prop
  | one (d : Nat) (h : d < 10) : IsDec [Char.ofNat (48 + d)] d
  | snoc (ds : Str) (v d : Nat) (h : IsDec ds v) (hd : d < 10) : IsDec (ds ++ [Char.ofNat (48 + d)]) (10 * v + d)

/-- `<port-num>@<interface-name>`. -/
def IfaceText (t : Str) (p : Nat) (n : Str) : Prop := ∃ ds, IsDec ds p ∧ t = ds ++ '@' :: n ∧ p < 2 ^ 31 ∧ '\n' ∉ n

/-- Interfaces are written as documented, or without `@`. -/
def Clean (a : Args) : Prop := ∀ t, (.interface, .text t) ∈ a → (∃ p n, IfaceText t p n) ∨ '@' ∉ t

/-- The command line is no list of options: unknown ones, single ones given twice, interfaces without `@`. -/
def Malformed (a : Args) : Prop :=
  (Given a .warnOnInvalidHdrRead ∨ Given a .retZeroOnInvalidHdrRead) ∨
  (∃ o, o ≠ .interface ∧ o ≠ .further ∧ 2 ≤ a.countP (fun x => x.1 = o)) ∨
  (∃ t, (.interface, .text t) ∈ a ∧ '@' ∉ t)

/-- Only information is asked for. -/
def Info (a : Args) : Prop := Given a .help ∨ Given a .version ∨ Given a .jsonVersion

/-- The names of the levels. -/
def levelName : Level → Option String
  | .trace => some "trace"
  | .debug => some "debug"
  | .info => some "info"
  | .warn => some "warn"
  | .error => some "error"
  | .off => some "off"
  | _ => none

/-- Options which do not fit together or have values that make no sense. -/
def Contradictory (isDir : Str → Bool) (a : Args) : Prop :=
  (¬ Given a .noP4 ∧ ¬ Given a .input) ∨
  (Given a .logConsole ∧ Given a .logFile) ∨
  (∃ l, (.logLevel, .text l) ∈ a ∧ ∀ v, (levelName v).map String.toList ≠ some l) ∨
  ((.logFileMaxSize, .num 0) ∈ a ∧ Given a .logFile) ∨
  (∃ d, (.pcap, .text d) ∈ a ∧ d ≠ [] ∧ isDir d = false) ∨
  (Given a .useFiles ∧ Given a .packetIn) ∨
  (∃ n, n < 0 ∧ (.maxPortCount, .num n) ∈ a)

/-- The text given, or the default. -/
def TextIs (a : Args) (o : Opt) (d x : Str) : Prop := (o, .text x) ∈ a ∨ (¬ Given a o ∧ x = d)

/-- The number given, or the default. -/
def NumIs (a : Args) (o : Opt) (d x : Int) : Prop := (o, .num x) ∈ a ∨ (¬ Given a o ∧ x = d)

/-- Interface `n` is to be port `p`: the last one given for this port; none with `--packet-in`. -/
def Attached (a : Args) (p : Nat) (n : Str) : Prop :=
  ¬ Given a .packetIn ∧ ∃ a₁ t a₂, a = a₁ ++ (.interface, .text t) :: a₂ ∧ IfaceText t p n ∧
    ∀ t' m, (.interface, .text t') ∈ a₂ → ¬ IfaceText t' p m

/-- The default address of a service of device `id`. -/
def defaultAddr (id : Int) (what : String) : Str :=
  "ipc:///tmp/bmv2-".toList ++ (toString id).toList ++ '-' :: what.toList ++ ".ipc".toList

open Classical in
/-- File `f` in directory `d`, with one slash between them; a file which begins with a slash is not moved. -/
noncomputable def inDir (d f : Str) : Str :=
  if ∃ r, f = '/' :: r then f else if ∃ r, d = r ++ ['/'] then d ++ f else d ++ '/' :: f

/-- The arguments after the program, in order. -/
def furtherTexts (a : Args) : List Str := a.filterMap fun | (.further, .text s) => some s | _ => none

/-- Looks like the file of a program. -/
def LooksLikeProgram (path : Str) : Prop :=
  2 < path.length ∧ (∀ r, path ≠ '-' :: '-' :: r) ∧ ∃ stem, path = stem ++ ".json".toList

end Bm.Options.Spec
