import Verif.Spec.Cli

/-!
# Model of the commands of the command line tool about tables

Transcribes the part of `/repo/tools/runtime_CLI.py` that turns a line of text into a request of the Thrift interface:
reading of numbers and addresses, match fields, action data, names, and the commands about tables whose entries hold
actions; also the values of parser value sets.

A command ends in a request, in an error message (`err`), or with a Python exception that `handle_bad_input` does not catch
(`crash`: the tool ends).  Nothing is sent in the last two cases.

Simplifications: a line is a list of words (`cmd.Cmd` splits off the command, `line.split()` the arguments); characters are
ASCII (Python also accepts decimal digits of other scripts); the dictionaries of the program are lists with distinct names;
`IPv6Address` of the Python library is a parameter.  Not modelled: text that is printed, tables with action profiles,
commands about several requests.
-/

namespace Bm.Cli
open Bm.Thrift

/-- How the evaluation of a Python expression ends: with a value, with an exception that `handle_bad_input` reports, or with
another exception.  `/repo/tools/runtime_CLI.py:720-761`. -/
inductive Out (α : Type)
  | ok (a : α)
  | err
  | crash
deriving DecidableEq, Repr

@[inherit_doc Out] protected def Out.bind {α β : Type} (x : Out α) (f : α → Out β) : Out β :=
  match x with
  | .ok a => f a
  | .err => .err
  | .crash => .crash

instance : Monad Out where
  pure := .ok
  bind := Out.bind

/-- An exception of the given sort if the result is missing (`try ... except`, e.g. `/repo/tools/runtime_CLI.py:542-546`). -/
def Out.of {α : Type} (e : Out α) : Option α → Out α
  | some a => .ok a
  | none => e

/-- A check that raises an exception (e.g. `/repo/tools/runtime_CLI.py:1084-1091`). -/
def Out.guard (e : Out Unit) (p : Prop) [Decidable p] : Out Unit := if p then .ok () else e

/-! ## `int` of Python -/

/-- The value of a digit, for `int` of Python (used at `/repo/tools/runtime_CLI.py:474,486,543,607,624,695,929`). -/
def digit (c : Char) : Option Nat :=
  if 48 ≤ c.toNat ∧ c.toNat ≤ 57 then some (c.toNat - 48)
  else if 97 ≤ c.toNat ∧ c.toNat ≤ 122 then some (c.toNat - 87)
  else if 65 ≤ c.toNat ∧ c.toNat ≤ 90 then some (c.toNat - 55)
  else none

/-- Digits to a base, underscores between them; `u`: no underscore may follow, and the text must not end.
Part of `int` (used at `/repo/tools/runtime_CLI.py:474,486,543,607,624,695,929`). -/
def digits (b : Nat) : Nat → Bool → Text → Option Nat
  | acc, u, [] => if u then none else some acc
  | acc, u, c :: cs =>
    if c = '_' then if u then none else digits b acc true cs
    else match digit c with
      | some d => if d < b then digits b (acc * b + d) false cs else none
      | none => none

/-- The text after the sign, in `int` (used at `/repo/tools/runtime_CLI.py:474,486,543,607,624,695,929`). -/
def signed (f : Text → Option Nat) : Text → Option Int
  | [] => none
  | c :: t =>
    if c = '+' then (f t).map fun (n : Nat) => (n : Int)
    else if c = '-' then (f t).map fun (n : Nat) => -(n : Int)
    else (f (c :: t)).map fun (n : Nat) => (n : Int)

/-- A prefix that gives the base, and the text after it, in `int(t, 16)` and `int(t, 0)`
(used at `/repo/tools/runtime_CLI.py:486,543,695`). -/
def basePrefix : Text → Option (Nat × Text)
  | '0' :: x :: t =>
    if x = 'x' ∨ x = 'X' then some (16, t)
    else if x = 'o' ∨ x = 'O' then some (8, t)
    else if x = 'b' ∨ x = 'B' then some (2, t)
    else none
  | _ => none

/-- After a prefix, one underscore is skipped (`int`, used at `/repo/tools/runtime_CLI.py:486,543,695`). -/
def afterPrefix (b : Nat) (t : Text) : Option Nat :=
  if t.head? = some '_' then digits b 0 true t.tail else digits b 0 true t

/-- `int(t)`.  `/repo/tools/runtime_CLI.py:474,607,624,927-934,1152`. -/
def int10 (t : Text) : Option Int := signed (digits 10 0 true) t

/-- `int(t, 16)` without sign.  `/repo/tools/runtime_CLI.py:486`. -/
def unsigned16 (t : Text) : Option Nat :=
  match basePrefix t with
  | some (b, t') => if b = 16 then afterPrefix 16 t' else digits 16 0 true t
  | none => digits 16 0 true t

/-- `int(t, 16)`.  `/repo/tools/runtime_CLI.py:486`. -/
def int16 (t : Text) : Option Int := signed unsigned16 t

/-- `int(t, 0)` without sign: the prefix gives the base; with leading zeros, only zero.
`/repo/tools/runtime_CLI.py:543,695`. -/
def unsigned0 (t : Text) : Option Nat :=
  match basePrefix t with
  | some (b, t') => afterPrefix b t'
  | none =>
    if t.head? = some '0' then (digits 10 0 true t).bind fun n => if n = 0 then some 0 else none
    else digits 10 0 true t

/-- `int(t, 0)`.  `/repo/tools/runtime_CLI.py:543,695`. -/
def int0 (t : Text) : Option Int := signed unsigned0 t

/-! ## Strings -/

/-- `str.split` at a character.  `/repo/tools/runtime_CLI.py:396,470,482`. -/
def split (sep : Char) : Text → List Text
  | [] => [[]]
  | c :: cs =>
    if c = sep then [] :: split sep cs
    else match split sep cs with
      | [] => [[c]]
      | t :: ts => (c :: t) :: ts

/-- The first occurrence of a separator: what is before and after it.  `/repo/tools/runtime_CLI.py:600,610,629`. -/
def cut (sep : Text) : Text → Option (Text × Text)
  | [] => none
  | c :: cs =>
    if sep.isPrefixOf (c :: cs) then some ([], (c :: cs).drop sep.length)
    else (cut sep cs).map fun x => (c :: x.1, x.2)

/-- `a, b = s.split(sep)`: there must be two parts.  `/repo/tools/runtime_CLI.py:600,610,629`. -/
def pair (sep : Text) (s : Text) : Option (Text × Text) :=
  match cut sep s with
  | none => none
  | some (a, b) => if (cut sep b).isSome then none else some (a, b)

/-! ## Values -/

/-- `bytes_to_string`: `struct.pack` raises an error for numbers that are no bytes.  `/repo/tools/runtime_CLI.py:60-62`. -/
def pack (l : List Int) : Out Bytes :=
  if ∀ x ∈ l, 0 ≤ x ∧ x < 256 then .ok (l.map fun x => UInt8.ofNat x.toNat) else .crash

/-- The first loop of `int_to_bytes`.  `/repo/tools/runtime_CLI.py:506-510`. -/
def lowLoop (unit : Nat) : Nat → Nat → Int → List Int × Int
  | 0, _, num => ([], num)
  | k + 1, i, num =>
    if i > 0 then
      let r := lowLoop unit k (i / 256) (num - unit)
      ((i % 256 : Nat) :: r.1, r.2)
    else ([], num)

/-- The second loop of `int_to_bytes`.  `/repo/tools/runtime_CLI.py:513-515`. -/
def padLoop (unit : Nat) : Nat → Int → List Int
  | 0, _ => []
  | k + 1, num => if num > 0 then 0 :: padLoop unit k (num - unit) else []

/-- `int_to_bytes`; `num` is counted in parts of `1 / unit` (it is not an integer in `parse_pvs_value`).  Negative numbers
are taken for 0.  `/repo/tools/runtime_CLI.py:505-517`. -/
def intToBytes (unit : Nat) (i : Int) (num : Nat) : Out (List Int) :=
  let r := lowLoop unit i.toNat i.toNat num
  if r.2 < 0 then .err else .ok (r.1 ++ padLoop unit r.2.toNat r.2).reverse

/-- `ipv4Addr_to_bytes`; outer `none`: `CLI_FormatExploreError`.  `/repo/tools/runtime_CLI.py:467-476`. -/
def ipv4 (s : Text) : Option (Out (List Int)) :=
  if '.' ∉ s then none
  else some (if (split '.' s).length ≠ 4 then .err else .of .err ((split '.' s).mapM int10))

/-- `macAddr_to_bytes`.  `/repo/tools/runtime_CLI.py:479-488`. -/
def mac (s : Text) : Option (Out (List Int)) :=
  if ':' ∉ s then none
  else some (if (split ':' s).length ≠ 6 then .err else .of .err ((split ':' s).mapM int16))

/-- `ipv6Addr_to_bytes`.  `/repo/tools/runtime_CLI.py:491-502`. -/
def ipv6 (v6 : V6) (s : Text) : Option (Out (List Int)) :=
  if ':' ∉ s then none
  else some (.of .err ((v6 s).map fun bs => bs.map fun b => (b.toNat : Int)))

/-- `parse_param`.  `/repo/tools/runtime_CLI.py:520-551`. -/
def parseParam (v6 : V6) (s : Text) (w : Nat) : Out (List Int) :=
  let a := if w = 32 then ipv4 s else if w = 48 then mac s else if w = 128 then ipv6 v6 s else none
  match a with
  | some r => r
  | none => (Out.of .err (int0 s)).bind fun i => intToBytes 1 i ((w + 7) / 8)

/-- `bytes_to_string(parse_param_(..))`.  `/repo/tools/runtime_CLI.py:555-566`. -/
def value (v6 : V6) (s : Text) (w : Nat) : Out Bytes := (parseParam v6 s w).bind pack

/-- `parse_runtime_data`, number of parameters checked by the caller.  `/repo/tools/runtime_CLI.py:554-567`. -/
def runtimeData (v6 : V6) : List Nat → List Text → Out (List Bytes)
  | w :: ws, p :: ps => do
    let b ← value v6 p w
    let bs ← runtimeData v6 ws ps
    return b :: bs
  | _, _ => .ok []

/-- `>` on strings, for the bounds of a range.  `/repo/tools/runtime_CLI.py:640-643`. -/
def lexLt : Bytes → Bytes → Bool
  | [], [] => false
  | [], _ :: _ => true
  | _ :: _, [] => false
  | a :: as, b :: bs => decide (a < b) || (decide (a = b) && lexLt as bs)

/-- `parse_match_key`, one field.  `/repo/tools/runtime_CLI.py:591-648`. -/
def parseField (v6 : V6) (k : MType) (w : Nat) (s : Text) : Out TParam :=
  match k with
  | .exact => do
    let b ← value v6 s w
    return .exact b
  | .lpm => do
    let (p, l) ← Out.of .err (pair ['/'] s)
    let b ← value v6 p w
    let n ← Out.of .crash (int10 l)
    return .lpm b n
  | .ternary => do
    let (p, q) ← Out.of .err (pair ['&', '&', '&'] s)
    let b ← value v6 p w
    let m ← value v6 q w
    .guard .err (m.length = b.length)
    return .ternary b m
  | .valid => do
    let n ← Out.of .crash (int10 s)
    return .valid (n ≠ 0)
  | .range => do
    let (p, q) ← Out.of .err (pair ['-', '>'] s)
    let a ← value v6 p w
    let b ← value v6 q w
    .guard .err (a.length = b.length)
    .guard .err (lexLt b a = false)
    return .range a b

/-- `parse_match_key`; more fields than the table has are an `IndexError`.  `/repo/tools/runtime_CLI.py:578-650`. -/
def matchKey (v6 : V6) : List (MType × Nat) → List Text → Out (List TParam)
  | _, [] => .ok []
  | [], _ :: _ => .crash
  | (k, w) :: ks, s :: ss => do
    let p ← parseField v6 k w s
    let ps ← matchKey v6 ks ss
    return p :: ps

/-! ## Names -/

/-- The suffixes of a name at dots, shortest first.  `/repo/tools/runtime_CLI.py:395-398`. -/
def suffixes (name : Text) : List Text :=
  (split '.' name).foldr (fun s acc =>
    match acc.getLast? with
    | none => [s]
    | some t => acc ++ [s ++ '.' :: t]) []

/-- `SUFFIX_LOOKUP_MAP`: suffixes that occur more than once are deleted.  `/repo/tools/runtime_CLI.py:387-403, 911-915`. -/
def lookup (all : List String) (q : Text) : Option String :=
  match (all.flatMap fun n => (suffixes n.toList).map fun s => (s, n)).filter fun x => x.1 = q with
  | [x] => some x.2
  | _ => none

/-- `get_res` for tables.  `/repo/tools/runtime_CLI.py:911-915`. -/
def getTab (cfg : Cfg) (q : Text) : Out TabD :=
  .of .err ((lookup (cfg.tabs.map TabD.name) q).bind fun n => cfg.tabs.find? fun T => T.name = n)

/-- `Table.get_action`.  `/repo/tools/runtime_CLI.py:153-158`. -/
def getAct (cfg : Cfg) (T : TabD) (q : Text) : Out ActD :=
  .of .err ((lookup (cfg.acts.map ActD.name) q).bind fun n =>
    (cfg.acts.find? fun A => A.name = n).bind fun A => if A.name ∈ T.acts then some A else none)

/-! ## Commands -/

/-- `writeI32` of the Thrift protocol, in the calls of the client (e.g. `/repo/tools/runtime_CLI.py:1186,1251,1273`). -/
def i32 (n : Int) : Out Unit := .guard .crash (-2 ^ 31 ≤ n ∧ n < 2 ^ 31)

/-- What `writeI32` meets in the match parameters (`BmMatchParamLPM`, `/repo/tools/runtime_CLI.py:606-607`). -/
def i32Key (ps : List TParam) : Out Unit :=
  .guard .crash (ps.all (fun p => match p with
    | .lpm _ n => decide (-2 ^ 31 ≤ n ∧ n < 2 ^ 31)
    | _ => true) = true)

/-- The priority is the last argument, for ternary and range tables.  `/repo/tools/runtime_CLI.py:1150-1158, 2382-2390`. -/
def popPrio (T : TabD) (args : List Text) : Out (List Text × Int) :=
  if T.prio then
    match args.getLast? with
    | none => .err
    | some t => (Out.of .err (int10 t)).bind fun n => .ok (args.dropLast, n)
  else .ok (args, 0)

/-- The loop that looks for `=>`: the value of `idx` afterwards; it has none if there is nothing to look at.
`/repo/tools/runtime_CLI.py:1160-1162`. -/
def arrowIdx : List Text → Option Nat
  | [] => none
  | [_] => some 0
  | t :: t' :: ts => if t = Spec.arrow then some 0 else (arrowIdx (t' :: ts)).map (· + 1)

/-- `self.parse_runtime_data`.  `/repo/tools/runtime_CLI.py:1084-1091`. -/
def checkedData (v6 : V6) (A : ActD) (ps : List Text) : Out (List Bytes) := do
  Out.guard .err (ps.length = A.widths.length)
  runtimeData v6 A.widths ps

/-- `do_table_add`; `rest`: the arguments after the two names.  `/repo/tools/runtime_CLI.py:1136-1187`. -/
def tableAdd (v6 : V6) (cfg : Cfg) (now : Nat) (args : List Text) : Out (String × Call) := do
  .guard .err (3 ≤ args.length)
  let T ← getTab cfg (args.getD 0 [])
  let A ← getAct cfg T (args.getD 1 [])
  let (args, prio) ← popPrio T args
  let idx ← Out.of .crash (arrowIdx (args.drop 2))
  let ks := (args.drop 2).take idx
  .guard .err (ks.length = T.key.length)
  let data ← checkedData v6 A (args.drop (idx + 3))
  let key ← matchKey v6 T.key ks
  i32Key key
  i32 prio
  return (T.name, .add key A.name data prio now)

/-- The handle as the server takes it: `i32` on the wire, of which `Model/Thrift` has the 32 bits.
`/repo/thrift_src/standard.thrift:16`. -/
def toHandle (n : Int) : Nat := (n % 2 ^ 32).toNat

/-- `do_table_set_default`.  `/repo/tools/runtime_CLI.py:1038-1063`. -/
def setDefault (v6 : V6) (cfg : Cfg) (args : List Text) : Out (String × Call) := do
  .guard .err (2 ≤ args.length)
  let T ← getTab cfg (args.getD 0 [])
  let A ← getAct cfg T (args.getD 1 [])
  let data ← checkedData v6 A (args.drop 2)
  return (T.name, .setDefault A.name data)

/-- `do_table_modify`: `args[3]` is looked at whether it exists or not.  `/repo/tools/runtime_CLI.py:1223-1253`. -/
def modify (v6 : V6) (cfg : Cfg) (args : List Text) : Out (String × Call) := do
  .guard .err (3 ≤ args.length)
  let T ← getTab cfg (args.getD 0 [])
  let A ← getAct cfg T (args.getD 1 [])
  let h ← Out.of .err (int10 (args.getD 2 []))
  let x ← Out.of .crash args[3]?
  let ps := if x = Spec.arrow then args.drop 4 else args.drop 3
  let data ← checkedData v6 A ps
  i32 h
  return (T.name, .modify (toHandle h) A.name data)

/-- `do_table_delete`, `do_table_dump_entry`.  `/repo/tools/runtime_CLI.py:1259-1275, 2232-2246`. -/
def withHandle (cfg : Cfg) (f : Nat → Call) (args : List Text) : Out (String × Call) := do
  .guard .err (args.length = 2)
  let T ← getTab cfg (args.getD 0 [])
  let h ← Out.of .err (int10 (args.getD 1 []))
  i32 h
  return (T.name, f (toHandle h))

/-- `do_table_reset_default`, `do_table_num_entries`, `do_table_clear`.
`/repo/tools/runtime_CLI.py:1069-1079, 1106-1130`. -/
def withTable (cfg : Cfg) (c : Call) (args : List Text) : Out (String × Call) := do
  .guard .err (args.length = 1)
  let T ← getTab cfg (args.getD 0 [])
  return (T.name, c)

/-- `do_table_dump_entry_from_key`.  `/repo/tools/runtime_CLI.py:2374-2402`. -/
def fromKey (v6 : V6) (cfg : Cfg) (args : List Text) : Out (String × Call) := do
  .guard .err (1 ≤ args.length)
  let T ← getTab cfg (args.getD 0 [])
  let (args, prio) ← popPrio T args
  let ks := args.drop 1
  .guard .err (ks.length = T.key.length)
  let key ← matchKey v6 T.key ks
  i32Key key
  i32 prio
  return (T.name, .getByKey key prio)

/-- The commands; `now`: the time at the switch.  `/repo/tools/runtime_CLI.py:1038-1275,2232-2402`. -/
def command (v6 : V6) (cfg : Cfg) (now : Nat) (name : String) (args : List Text) : Out (String × Call) :=
  if name = "table_add" then tableAdd v6 cfg now args
  else if name = "table_set_default" then setDefault v6 cfg args
  else if name = "table_reset_default" then withTable cfg .resetDefault args
  else if name = "table_modify" then modify v6 cfg args
  else if name = "table_delete" then withHandle cfg .delete args
  else if name = "table_dump_entry" then withHandle cfg .get args
  else if name = "table_dump_entry_from_key" then fromKey v6 cfg args
  else if name = "table_clear" then withTable cfg (.clear false) args
  else if name = "table_num_entries" then withTable cfg .count args
  else .err

/-! ## Parser value sets -/

/-- `parse_pvs_value`: the number of bytes is the result of a division with `/`.  `/repo/tools/runtime_CLI.py:693-712`. -/
def pvsValue (s : Text) (w : Nat) : Out Bytes := do
  let i ← Out.of .err (int0 s)
  .guard .err (i ≤ 2 ^ w - 1)
  let l ← intToBytes 8 i (w + 7)
  pack l

/-- `do_pvs_add`, `do_pvs_remove`: the request has the name as it was typed.  `/repo/tools/runtime_CLI.py:2418-2446`. -/
def pvsAdd (vsets : List (String × Nat)) (args : List Text) : Out (Text × Bytes) := do
  .guard .err (args.length = 2)
  let w ← Out.of .err ((lookup (vsets.map Prod.fst) (args.getD 0 [])).bind fun n => vsets.lookup n)
  let v ← pvsValue (args.getD 1 []) w
  return (args.getD 0 [], v)

end Bm.Cli
