import Verif.Spec.MatchTable
import Verif.Spec.KeyBuilder

/-!
# Specification of tables as a Thrift client sees them (C96)

A client writes entries as lists of match parameters (byte strings) with an action name and byte strings for its
data, and reads them back; packets are given by the values of the match fields.  The state of a table is a finite map
from handles to the entries that were written, and the default.  Only types of the configuration come from elsewhere.
-/

namespace Bm.Thrift
open Bm.Spec

/-! ## The interface -/

/-- A match parameter of a request or a reply. -/
inductive TParam
  | exact (key : List UInt8)
  | lpm (key : List UInt8) (len : Int)
  | ternary (key mask : List UInt8)
  | valid (b : Bool)
  | range (lo hi : List UInt8)
deriving DecidableEq, Repr

/-- Requests about one table, and packets that reach it (`vals`: the bytes of the match fields). -/
inductive Call
  | add (ps : List TParam) (act : String) (data : List (List UInt8)) (prio : Int) (now : Nat)
  | delete (h : Nat)
  | modify (h : Nat) (act : String) (data : List (List UInt8))
  | setDefault (act : String) (data : List (List UInt8))
  | resetDefault
  | get (h : Nat)
  | getByKey (ps : List TParam) (prio : Int)
  | entries
  | getDefault
  | count
  | clear (d : Bool)
  | packet (vals : List (List UInt8)) (nbytes ts : Nat)

/-- Exceptions. -/
inductive Exc
  | tableFull | invalidHandle | expiredHandle | invalidTableName | invalidActionName | wrongTableType
  | duplicateEntry | badMatchKey | noTableKey | error | badActionData | immutableTableEntries
  | defaultActionIsConst | defaultEntryIsConst | noDefaultEntry
deriving DecidableEq, Repr

/-- An entry in a reply. -/
structure BmEntry where
  key : List TParam := []
  handle : Nat := 0
  prio : Int := 0
  act : Option (String × List (List UInt8)) := none
deriving DecidableEq, Repr

/-- Replies, and what happens to a packet: the action run with its data (if there is one), the handle of the
matching entry, the index recorded in the packet, and the next node. -/
inductive Res
  | exc (c : Exc)
  | done
  | handle (h : Nat)
  | entry (e : BmEntry)
  | entries (l : List BmEntry)
  | action (a : Option (String × List (List UInt8)))
  | num (n : Nat)
  | ran (act : Option (ActFn × List Int)) (hit : Option Nat) (index : Nat) (next : Option Nat)
deriving DecidableEq, Repr

/-- Kinds of tables; `cache`: ternary and range tables remember lookups. -/
inductive Kind
  | exact
  | lpm
  | ternary (cache : Bool)
  | range (cache : Bool)
deriving DecidableEq, Repr

/-- The declaration of a table: match fields, capacity, names of its actions, and the rest of the program's
declaration, constant entries being given by match parameters and a priority. -/
structure Decl where
  kind : Kind
  fs : List KeyF
  size : Nat
  names : List (String × ActFn)
  prog : TableDecl (List MParam × Int)

namespace Spec

/-! ## What entries mean -/

/-- The parameter in the terms of `Spec/KeyBuilder`. -/
def TParam.means : TParam → MParam
  | .exact k => { type := .exact, key := k }
  | .lpm k n => { type := .lpm, key := k, prefixLength := n }
  | .ternary k m => { type := .ternary, key := k, mask := m }
  | .valid b => { type := .valid, key := [if b then 1 else 0] }
  | .range lo hi => { type := .range, key := lo, mask := hi }

/-- The numbers of action data. -/
def nums (data : List (List UInt8)) : List Int := data.map fun b => (bytesNat b : Int)

/-- Tables whose entries have priorities. -/
def Kind.hasPrio : Kind → Bool
  | .exact | .lpm => false
  | .ternary _ | .range _ => true

/-- Two parameters of a field say the same. -/
def SameField (cw : Nat → Nat) (f : KeyF) (p p' : MParam) : Prop :=
  match f.mtype with
  | .exact => paramValue f p = paramValue f p'
  | .valid => paramValue f p = paramValue f p'
  | .ternary => bytesNat p.mask = bytesNat p'.mask ∧
      paramValue f p &&& bytesNat p.mask = paramValue f p' &&& bytesNat p'.mask
  | .range => paramValue f p = paramValue f p' ∧ bytesNat p.mask = bytesNat p'.mask
  | .lpm => p.prefixLength = p'.prefixLength ∧
      PrefixAgrees (cw f.nbits) p.prefixLength.toNat (paramValue f p) (paramValue f p')

/-- Two entries have the same key: the parameters of every field say the same, and so do the priorities, if the
table has such. -/
def SameKey (d : Decl) (a b : List MParam × Int) : Prop :=
  (∀ (i : Nat) (f : KeyF) (p p' : MParam), d.fs[i]? = some f → a.1[i]? = some p → b.1[i]? = some p' →
    SameField paddedWidth f p p') ∧
  (Kind.hasPrio d.kind = true → a.2 = b.2)

/-- The prefix length of the (first) prefix field. -/
def prefixOf (fs : List KeyF) (ps : List MParam) : Int :=
  match (fs.zip ps).find? (fun x => decide (x.1.mtype = .lpm)) with
  | some x => x.2.prefixLength
  | none => 0

/-- Entries of smaller rank win: in prefix tables the longer prefix, otherwise the smaller priority number. -/
def rank (d : Decl) (a : List MParam × Int) : Int :=
  match d.kind with
  | .exact => 0
  | .lpm => - prefixOf d.fs a.1
  | .ternary _ => a.2
  | .range _ => a.2

/-! ## State and transitions -/

/-- An entry as it was written. -/
structure SEntry where
  key : List MParam × Int
  fn : ActFn
  data : List Int

/-- State of a table. -/
structure STab where
  T : Nat → Option SEntry
  D : Option (ActFn × List Int)

/-- Why a request is refused. -/
inductive Why
  | tableName | tableType | actionName
  | table (e : AErr)
deriving DecidableEq, Repr

/-- The reason that an exception stands for (none: internal error, never the right answer). -/
def Exc.why : Exc → Option Why
  | .tableFull => some (.table (.table .full))
  | .invalidHandle => some (.table (.table .stale))
  | .expiredHandle => some (.table (.table .stale))
  | .invalidTableName => some .tableName
  | .invalidActionName => some .actionName
  | .wrongTableType => some .tableType
  | .duplicateEntry => some (.table (.table .duplicate))
  | .badMatchKey => some (.table (.table .badKey))
  | .noTableKey => some (.table (.table .noKey))
  | .error => none
  | .badActionData => some (.table .badData)
  | .immutableTableEntries => some (.table .constEntries)
  | .defaultActionIsConst => some (.table .constAction)
  | .defaultEntryIsConst => some (.table .constEntry)
  | .noDefaultEntry => some (.table .noDefault)

/-- Refused for this reason. -/
def Refused (w : Why) (r : Res) : Prop := ∃ c, r = .exc c ∧ Exc.why c = some w

/-- `(n, bs)` presents an action and its data. -/
def ShowsAct (d : Decl) (f : ActFn) (data : List Int) (x : Option (String × List (List UInt8))) : Prop :=
  ∃ n bs, x = some (n, bs) ∧ (n, f) ∈ d.names ∧ nums bs = data

/-- Prefix tables keep the bits outside of the prefix. -/
def Kind.keepLow : Kind → Bool
  | .exact | .lpm => true
  | .ternary _ | .range _ => false

/-- `b` presents the entry `e`: its parameters with ignored bits cleared, its priority if the table has such
(otherwise −1), its action and data. -/
def Shows (d : Decl) (e : SEntry) (b : BmEntry) : Prop :=
  b.key.length = d.fs.length ∧
  (∀ (i : Nat) (f : KeyF) (p : MParam) (p' : TParam), d.fs[i]? = some f → e.key.1[i]? = some p → b.key[i]? = some p' →
    ReadsBack (Kind.keepLow d.kind) f p (TParam.means p')) ∧
  b.prio = (if Kind.hasPrio d.kind then e.key.2 else -1) ∧
  ShowsAct d e.fn e.data b.act

/-- `l` lists the handles in use. -/
def InUse (s : STab) (l : List Nat) : Prop := l.Nodup ∧ ∀ h, h ∈ l ↔ (s.T h).isSome = true

/-- The action with the given name. -/
def WithAct (d : Decl) (a : String) (s s' : STab) (r : Res) (k : ActFn → Prop) : Prop :=
  (∃ f, (a, f) ∈ d.names ∧ k f) ∨ ((∀ f, (a, f) ∉ d.names) ∧ s' = s ∧ Refused .actionName r)

/-- Addition of an entry to a table without constant entries. -/
def AddStep (d : Decl) (s : STab) (e : SEntry) (s' : STab) (r : Res) : Prop :=
  (d.fs = [] ∧ s' = s ∧ Refused (.table (.table .noKey)) r) ∨
  (d.fs ≠ [] ∧ ¬ ParamsOk d.fs e.key.1 ∧ s' = s ∧ Refused (.table (.table .badKey)) r) ∨
  (d.fs ≠ [] ∧ ParamsOk d.fs e.key.1 ∧ (∃ h e', s.T h = some e' ∧ SameKey d e'.key e.key) ∧ s' = s ∧
    Refused (.table (.table .duplicate)) r) ∨
  (d.fs ≠ [] ∧ ParamsOk d.fs e.key.1 ∧ (∀ h e', s.T h = some e' → ¬ SameKey d e'.key e.key) ∧ ∃ l, InUse s l ∧
    ((l.length = d.size ∧ s' = s ∧ Refused (.table (.table .full)) r) ∨
     (l.length < d.size ∧ ∃ h, r = .handle h ∧ h < 2 ^ 32 ∧ s.T h = none ∧ (∀ h' ∈ l, slotOf h' ≠ slotOf h) ∧
      s' = { s with T := fun h' => if h' = h then some e else s.T h' })))

/-- A matching entry that wins against all other matching entries; ties go to the lower slot. -/
def Wins (d : Decl) (s : STab) (vals : List (List UInt8)) (h : Nat) (e : SEntry) : Prop :=
  s.T h = some e ∧ AllMatch paddedWidth d.fs e.key.1 vals ∧
  ∀ h' e', s.T h' = some e' → AllMatch paddedWidth d.fs e'.key.1 vals →
    rank d e.key < rank d e'.key ∨ (rank d e.key = rank d e'.key ∧ slotOf h ≤ slotOf h')

/-- Allowed transitions. -/
def Step (d : Decl) (s : STab) : Call → STab → Res → Prop
  | .add ps a data prio _, s', r => WithAct d a s s' r fun f =>
    if d.prog.entries.isSome then s' = s ∧ Refused (.table .constEntries) r
    else if data.length ≠ f.nparams then s' = s ∧ Refused (.table .badData) r
    else AddStep d s ⟨(ps.map TParam.means, prio), f, nums data⟩ s' r
  | .delete h, s', r =>
    if d.prog.entries.isSome then s' = s ∧ Refused (.table .constEntries) r
    else match s.T h with
      | some _ => s' = { s with T := fun h' => if h' = h then none else s.T h' } ∧ r = .done
      | none => s' = s ∧ Refused (.table (.table .stale)) r
  | .modify h a data, s', r => WithAct d a s s' r fun f =>
    if d.prog.entries.isSome then s' = s ∧ Refused (.table .constEntries) r
    else if data.length ≠ f.nparams then s' = s ∧ Refused (.table .badData) r
    else match s.T h with
      | some e => s' = { s with T := fun h' => if h' = h then some ⟨e.key, f, nums data⟩ else s.T h' } ∧ r = .done
      | none => s' = s ∧ Refused (.table (.table .stale)) r
  | .setDefault a data, s', r => WithAct d a s s' r fun f =>
    if ∃ x, d.prog.dflt = some x ∧ x.constEntry = true then s' = s ∧ Refused (.table .constEntry) r
    else if ∃ x, d.prog.dflt = some x ∧ x.constAction = true ∧ x.fn ≠ f then
      s' = s ∧ Refused (.table .constAction) r
    else if data.length ≠ f.nparams then s' = s ∧ Refused (.table .badData) r
    else s' = { s with D := some (f, nums data) } ∧ r = .done
  | .resetDefault, s', r => s' = { s with D := d.prog.default0 } ∧ r = .done
  | .get h, s', r => s' = s ∧
    match s.T h with
    | some e => ∃ b, r = .entry b ∧ b.handle = h ∧ Shows d e b
    | none => Refused (.table (.table .stale)) r
  | .getByKey ps prio, s', r => s' = s ∧
    ((∃ h e b, ParamsOk d.fs (ps.map TParam.means) ∧ s.T h = some e ∧ SameKey d e.key (ps.map TParam.means, prio) ∧
        r = .entry b ∧ b.handle = h ∧ Shows d e b) ∨
     ((ParamsOk d.fs (ps.map TParam.means) → ∀ h e, s.T h = some e →
        ¬ SameKey d e.key (ps.map TParam.means, prio)) ∧ Refused (.table (.table .badKey)) r))
  | .entries, s', r => s' = s ∧ ∃ l, r = .entries l ∧ InUse s (l.map BmEntry.handle) ∧
    ∀ b ∈ l, ∃ e, s.T b.handle = some e ∧ Shows d e b
  | .getDefault, s', r => s' = s ∧
    match s.D with
    | some (f, data) => ∃ x, r = .action x ∧ ShowsAct d f data x
    | none => r = .action none
  | .count, s', r => s' = s ∧ ∃ l, InUse s l ∧ r = .num l.length
  | .clear c, s', r => s' = { T := fun _ => none, D := if c then d.prog.default0 else s.D } ∧ r = .done
  | .packet vals _ _, s', r => s' = s ∧
    (((∀ h e, s.T h = some e → ¬ AllMatch paddedWidth d.fs e.key.1 vals) ∧
        r = .ran s.D none (2 ^ 64 - 1) (d.prog.goto false s.D)) ∨
     ∃ h e, Wins d s vals h e ∧
        r = .ran (some (e.fn, e.data)) (some h) (slotOf h) (d.prog.goto true (some (e.fn, e.data))))

/-- Initial states: exactly the declared entries, each under a handle of its own, and the declared default. -/
def Start (d : Decl) (s : STab) : Prop :=
  s.D = d.prog.default0 ∧
  ∃ hs, InUse s hs ∧ hs.map s.T = (d.prog.entries.getD []).map fun e => some ⟨e.1, e.2.1, e.2.2⟩

/-! ## A switch with several tables -/

/-- Tables of a switch: those whose entries hold actions, and others (entries refer to members or groups of an
action profile). -/
inductive Table
  | direct (d : Decl)
  | indirect

/-- The table of the given name. -/
def named (l : List (String × Table)) (n : String) : Option Table := (l.find? fun x => x.1 = n).map Prod.snd

/-- Requests that change entries or the default. -/
def Call.writes : Call → Bool
  | .add _ _ _ _ _ | .delete _ | .modify _ _ _ | .setDefault _ _ | .resetDefault => true
  | _ => false

/-- Requests that read entries or the default, and packets. -/
def Call.reads : Call → Bool
  | .get _ | .getByKey _ _ | .entries | .getDefault | .packet _ _ _ => true
  | _ => false

/-- A request about the table of the given name. -/
def SwStep (tabs : String → Option Table) (s : String → STab) (n : String) (c : Call) (s' : String → STab)
    (r : Res) : Prop :=
  match tabs n with
  | some (.direct d) => Step d (s n) c (s' n) r ∧ ∀ m, m ≠ n → s' m = s m
  | some .indirect => s' = s ∧ Refused .tableType r
  | none => s' = s ∧ Refused .tableName r

/-- Allowed results of a history. -/
inductive Trace (tabs : String → Option Table) : (String → STab) → List (String × Call) → List Res → (String → STab) → Prop
  | nil (s) : Trace tabs s [] [] s
  | cons {s s' s'' n c r ops rs} : SwStep tabs s n c s' r → Trace tabs s' ops rs s'' →
      Trace tabs s ((n, c) :: ops) (r :: rs) s''

/-! ## Declarations and histories considered -/

/-- The match kinds that the kind of table allows. -/
def FieldKinds (d : Decl) : Prop :=
  match d.kind with
  | .exact => ∀ f ∈ d.fs, f.mtype = .exact ∨ f.mtype = .valid
  | .lpm => ∃ (l : Nat) (f : KeyF), d.fs[l]? = some f ∧ f.mtype = .lpm ∧
      ∀ (i : Nat) (g : KeyF), d.fs[i]? = some g → i ≠ l → g.mtype = .exact ∨ g.mtype = .valid
  | .ternary _ => ∀ f ∈ d.fs, f.mtype ≠ .range
  | .range _ => True

/-- Well-formed declarations. -/
structure Decl.WF (d : Decl) : Prop where
  /-- fields are not empty, static masks have the length of the field, validity matches have eight bits -/
  fields : ∀ f ∈ d.fs, 1 ≤ f.nbits ∧ (∀ m, f.smask = some m → m.length = (f.nbits + 7) / 8) ∧
    (f.mtype = .valid → f.nbits = 8)
  kinds : FieldKinds d
  size : d.size ≤ 2 ^ 24
  names : (d.names.map Prod.fst).Nodup
  acts : d.names.map Prod.snd = d.prog.actions.map Prod.fst
  ids : (d.prog.actions.map fun x => x.1.id).Nodup
  dflt : ∀ x, d.prog.dflt = some x → x.fn ∈ d.prog.actions.map Prod.fst ∧ x.data.length = x.fn.nparams ∧
    ∀ v ∈ x.data, 0 ≤ v
  entries : ∀ e ∈ d.prog.entries.getD [], ParamsOk d.fs e.1.1 ∧ e.2.1 ∈ d.prog.actions.map Prod.fst ∧
    e.2.2.length = e.2.1.nparams ∧ (∀ v ∈ e.2.2, 0 ≤ v) ∧
    ∀ p ∈ e.1.1, p.type = .valid → p.key = [0] ∨ p.key = [1]
  keyed : d.prog.entries.getD [] ≠ [] → d.fs ≠ []
  fits : (d.prog.entries.getD []).length ≤ d.size
  distinct : (d.prog.entries.getD []).Pairwise fun e e' => ¬ SameKey d e.1 e'.1

/-- Requests and packets considered.  Packets come to tables with actions and have proper field values.  For tables of
the other kind only the requests that write are considered.  For names of no table the requests that read are not
(`C96_refuted_name`), and an entry is not looked up by an empty key (`C96_refuted_empty`). -/
def Considered (tabs : String → Option Table) (n : String) (c : Call) : Prop :=
  match tabs n with
  | some (.direct d) =>
    match c with
    | .packet vals _ _ => ValuesOk d.fs vals
    | .getByKey ps _ => ps ≠ []
    | _ => True
  | some .indirect => Call.writes c = true
  | none => Call.reads c = false

end Spec
end Bm.Thrift
