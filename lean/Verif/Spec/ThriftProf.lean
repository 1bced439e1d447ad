import Verif.Spec.Thrift
import Verif.Spec.Profile

/-!
# Specification of an action profile and its tables as a Thrift client sees them (C102)

A client creates members (an action name with byte strings for its data) and groups, and writes entries of tables as
lists of match parameters with a member or a group.  The state is the one of `Spec/Profile`, with the entries as they
were written, under the parameters that the client gave.  Packets are given by the values of the match fields and
the value of the selection hash.
-/

namespace Bm.Thrift
open Bm.Spec

/-! ## The interface -/

/-- Requests about an action profile. -/
inductive PCall
  | addMember (act : String) (data : List (List UInt8))
  | delMember (m : Nat)
  | modMember (m : Nat) (act : String) (data : List (List UInt8))
  | newGroup
  | delGroup (g : Nat)
  | join (m g : Nat)
  | leave (m g : Nat)
  | getMember (m : Nat)
  | getMembers
  | getGroup (g : Nat)
  | getGroups

/-- Requests about a table with an action profile, and packets that reach it.  A request with a member is the one called
`indirect`, a request with a group is the one called `indirect_ws`. -/
inductive TCall
  | add (ps : List TParam) (r : Ref) (prio : Int) (now : Nat)
  | delete (h : Nat)
  | modify (h : Nat) (r : Ref)
  | setDefault (r : Ref)
  | resetDefault
  | get (h : Nat)
  | getByKey (ps : List TParam) (prio : Int)
  | entries
  | getDefault
  | count
  | clear (d : Bool)
  | packet (vals : List (List UInt8)) (nbytes ts hash : Nat)

/-- Requests, by the name of a profile or a table. -/
inductive PReq
  | prof (n : String) (c : PCall)
  | tab (n : String) (c : TCall)

/-- Exceptions. -/
inductive PExc
  | tableFull | invalidHandle | expiredHandle | invalidTableName | invalidActionName | wrongTableType
  | duplicateEntry | badMatchKey | noTableKey | error | badActionData | defaultEntryIsConst
  | invalidProfileName | invalidMbrHandle | invalidGrpHandle | mbrStillUsed | grpStillUsed
  | mbrAlreadyInGrp | mbrNotInGrp | emptyGrp
deriving DecidableEq, Repr

/-- An entry in a reply. -/
structure IEntry where
  key : List TParam := []
  handle : Nat := 0
  prio : Int := 0
  ref : Option Ref := none
deriving DecidableEq, Repr

/-- Replies, and what happens to a packet: handle of the matching entry, and action. -/
inductive PRes
  | exc (c : PExc)
  | done
  | handle (h : Nat)
  | member (m : Nat) (act : String) (data : List (List UInt8))
  | members (l : List (Nat × String × List (List UInt8)))
  | group (g : Nat) (l : List Nat)
  | groups (l : List (Nat × List Nat))
  | entry (e : IEntry)
  | entries (l : List IEntry)
  | ref (r : Option Ref)
  | num (n : Nat)
  | look (hit : Option Nat) (r : Look (ActFn × List Int))
deriving DecidableEq

/-- The declaration of a table with an action profile; `ws`: entries may point to groups. -/
structure ITDecl where
  name : String
  kind : Kind
  fs : List KeyF
  size : Nat
  ws : Bool
  constDflt : Bool := false

/-- One action profile, its `n` tables, and the names of the tables without action profile. -/
structure PDecl (n : Nat) where
  name : String
  acts : List (String × ActFn)
  tab : Fin n → ITDecl
  direct : List String

namespace Spec

/-- The part of a declaration of `Spec/Thrift` that keys depend on. -/
def keysOf (d : ITDecl) : Decl where
  kind := d.kind
  fs := d.fs
  size := d.size
  names := []
  prog := { actions := [], hitMiss := none, base := none, dflt := none, entries := none }

/-! ## State and transitions -/

/-- Keys as they were written. -/
abbrev CKey : Type := List MParam × Int

/-- States. -/
abbrev CState (n : Nat) := PState (Fin n) (fun _ => CKey) (ActFn × List Int)

/-- The tables, for `Spec/Profile`. -/
def pcfg {n : Nat} (d : PDecl n) : PCfg (Fin n) (fun _ => CKey) where
  sp := fun i =>
    { okQ := fun _ => True
      okK := fun k => ParamsOk (d.tab i).fs k.1
      m := fun _ _ => False
      prio := rank (keysOf (d.tab i))
      same := SameKey (keysOf (d.tab i)) }
  size := fun i => (d.tab i).size
  keyless := fun i => decide ((d.tab i).fs = [])
  constDflt := fun i => (d.tab i).constDflt

/-- Why a request is refused; `inUse true`: the group is in use. -/
inductive PWhy
  | tableName | tableType | actionName | profileName
  | inUse (group : Bool)
  | prof (e : PErr)
  | table (e : TErr)
deriving DecidableEq, Repr

/-- The reason that an exception stands for (none: internal error). -/
def PExc.why : PExc → Option PWhy
  | .tableFull => some (.table .full)
  | .invalidHandle => some (.table .stale)
  | .expiredHandle => some (.table .stale)
  | .invalidTableName => some .tableName
  | .invalidActionName => some .actionName
  | .wrongTableType => some .tableType
  | .duplicateEntry => some (.table .duplicate)
  | .badMatchKey => some (.table .badKey)
  | .noTableKey => some (.table .noKey)
  | .error => none
  | .badActionData => some (.prof .badData)
  | .defaultEntryIsConst => some (.prof .constDefault)
  | .invalidProfileName => some .profileName
  | .invalidMbrHandle => some (.prof .noMember)
  | .invalidGrpHandle => some (.prof .noGroup)
  | .mbrStillUsed => some (.inUse false)
  | .grpStillUsed => some (.inUse true)
  | .mbrAlreadyInGrp => some (.prof .already)
  | .mbrNotInGrp => some (.prof .notIn)
  | .emptyGrp => some (.prof .emptyGroup)

/-- Refused for this reason. -/
def PRefused (w : PWhy) (r : PRes) : Prop := ∃ c, r = .exc c ∧ PExc.why c = some w

/-- `r` tells the result `out` of a call of the profile or of a table. -/
def Tells {ι : Type} {K : ι → Type} {A : Type} (group : Bool) (out : POut ι K A) (r : PRes) : Prop :=
  match out with
  | .err e => PRefused (if e = .inUse then .inUse group else .prof e) r
  | .done => r = .done
  | .id n => r = .handle n
  | .tab _ (.err e) => PRefused (.table e) r
  | .tab _ .done => r = .done
  | .tab _ (.handle h) => r = .handle h
  | _ => False

variable {n : Nat}

/-- A call of the profile or of a table (`L`: how many references were left behind, see `Spec/Profile`). -/
def CallStep (d : PDecl n) (s : CState n) (L : Ref → Nat) (group : Bool)
    (op : POp (Fin n) (fun _ => CKey) (ActFn × List Int)) (s' : CState n) (L' : Ref → Nat) (r : PRes) : Prop :=
  ∃ out, PStepL (pcfg d) s L op s' L' out ∧ Tells group out r

/-- The action with its data, unless their number is wrong. -/
def actOf (f : ActFn) (data : List (List UInt8)) : Option (ActFn × List Int) :=
  if data.length = f.nparams then some (f, nums data) else none

/-- Requests that name an action. -/
def PWithAct (d : PDecl n) (a : String) (unchanged : Prop) (r : PRes) (k : ActFn → Prop) : Prop :=
  (∃ f, (a, f) ∈ d.acts ∧ k f) ∨ ((∀ f, (a, f) ∉ d.acts) ∧ unchanged ∧ PRefused .actionName r)

/-- `(a, bs)` presents the action of a member. -/
def ShowsMember (d : PDecl n) (x : ActFn × List Int) (a : String) (bs : List (List UInt8)) : Prop :=
  (a, x.1) ∈ d.acts ∧ nums bs = x.2

/-- Requests about the profile. -/
def ProfStep (d : PDecl n) (s : CState n) (L : Ref → Nat) (c : PCall) (s' : CState n) (L' : Ref → Nat) (r : PRes) :
    Prop :=
  match c with
  | .addMember a data => PWithAct d a (s' = s ∧ L' = L) r fun f =>
      CallStep d s L false (.addMember (actOf f data)) s' L' r
  | .delMember m => CallStep d s L false (.delMember m) s' L' r
  | .modMember m a data => PWithAct d a (s' = s ∧ L' = L) r fun f =>
      CallStep d s L false (.modMember m (actOf f data)) s' L' r
  | .newGroup => CallStep d s L true .newGroup s' L' r
  | .delGroup g => CallStep d s L true (.delGroup g) s' L' r
  | .join m g => CallStep d s L true (.join m g) s' L' r
  | .leave m g => CallStep d s L true (.leave m g) s' L' r
  | .getMember m => (s' = s ∧ L' = L) ∧
    match s.mem m with
    | some x => ∃ a bs, r = .member m a bs ∧ ShowsMember d x a bs
    | none => PRefused (.prof .noMember) r
  | .getMembers => (s' = s ∧ L' = L) ∧ ∃ l, r = .members l ∧ (l.map Prod.fst).Pairwise (· < ·) ∧
      (∀ x ∈ l, ∃ y, s.mem x.1 = some y ∧ ShowsMember d y x.2.1 x.2.2) ∧
      ∀ m, (s.mem m).isSome = true → m ∈ l.map Prod.fst
  | .getGroup g => (s' = s ∧ L' = L) ∧
    match s.grp g with
    | some G => ∃ l, r = .group g l ∧ Lists l G
    | none => PRefused (.prof .noGroup) r
  | .getGroups => (s' = s ∧ L' = L) ∧ ∃ l, r = .groups l ∧ (l.map Prod.fst).Pairwise (· < ·) ∧
      (∀ x ∈ l, ∃ G, s.grp x.1 = some G ∧ Lists x.2 G) ∧
      ∀ g, (s.grp g).isSome = true → g ∈ l.map Prod.fst

/-- The key of an addition, if it is well formed. -/
def KeyGiven (d : ITDecl) (ps : List TParam) (prio : Int) (k : Option CKey) : Prop :=
  (ParamsOk d.fs (ps.map TParam.means) ∧ k = some (ps.map TParam.means, prio)) ∨
  (¬ ParamsOk d.fs (ps.map TParam.means) ∧ k = none)

/-- Groups can only be used in tables that were declared so. -/
def RefAllowed (d : ITDecl) (r : Ref) : Prop :=
  match r with
  | .mbr _ => True
  | .grp _ => d.ws = true

/-- Requests with a member or a group. -/
def WithRef (d : ITDecl) (ref : Ref) (unchanged : Prop) (r : PRes) (k : Prop) : Prop :=
  (RefAllowed d ref ∧ k) ∨ (¬ RefAllowed d ref ∧ unchanged ∧ PRefused .tableType r)

/-- `b` presents an entry: its parameters with ignored bits cleared, its priority if the table has such (otherwise −1),
and the member or group. -/
def IShows (d : ITDecl) (e : CKey × Ref) (b : IEntry) : Prop :=
  b.key.length = d.fs.length ∧
  (∀ (i : Nat) (f : KeyF) (p : MParam) (p' : TParam), d.fs[i]? = some f → e.1.1[i]? = some p → b.key[i]? = some p' →
    ReadsBack (Kind.keepLow d.kind) f p (TParam.means p')) ∧
  b.prio = (if Kind.hasPrio d.kind then e.1.2 else -1) ∧
  b.ref = some e.2

/-- A matching entry that wins against all other matching entries; ties go to the lower slot. -/
def IWins (d : ITDecl) (T : Nat → Option (CKey × Ref)) (vals : List (List UInt8)) (h : Nat) (e : CKey × Ref) : Prop :=
  T h = some e ∧ AllMatch paddedWidth d.fs e.1.1 vals ∧
  ∀ h' e', T h' = some e' → AllMatch paddedWidth d.fs e'.1.1 vals →
    rank (keysOf d) e.1 < rank (keysOf d) e'.1 ∨ (rank (keysOf d) e.1 = rank (keysOf d) e'.1 ∧ slotOf h ≤ slotOf h')

/-- Requests about a table, and packets. -/
def TabStep (d : PDecl n) (i : Fin n) (s : CState n) (L : Ref → Nat) (c : TCall) (s' : CState n) (L' : Ref → Nat)
    (r : PRes) : Prop :=
  match c with
  | .add ps ref prio now => WithRef (d.tab i) ref (s' = s ∧ L' = L) r
      (∃ k, KeyGiven (d.tab i) ps prio k ∧ CallStep d s L false (.tAdd i k ref now) s' L' r)
  | .delete h => CallStep d s L false (.tDel i h) s' L' r
  | .modify h ref => WithRef (d.tab i) ref (s' = s ∧ L' = L) r (CallStep d s L false (.tMod i h ref) s' L' r)
  | .setDefault ref => WithRef (d.tab i) ref (s' = s ∧ L' = L) r (CallStep d s L false (.setDflt i ref) s' L' r)
  | .resetDefault => CallStep d s L false (.unsetDflt i) s' L' r
  | .clear b => CallStep d s L false (.clear i b) s' L' r
  | .get h => (s' = s ∧ L' = L) ∧
    match s.tab i h with
    | some e => ∃ b, r = .entry b ∧ b.handle = h ∧ IShows (d.tab i) e b
    | none => PRefused (.table .stale) r
  | .getByKey ps prio => (s' = s ∧ L' = L) ∧
    ((∃ h e b, ParamsOk (d.tab i).fs (ps.map TParam.means) ∧ s.tab i h = some e ∧
        SameKey (keysOf (d.tab i)) e.1 (ps.map TParam.means, prio) ∧
        r = .entry b ∧ b.handle = h ∧ IShows (d.tab i) e b) ∨
     ((ParamsOk (d.tab i).fs (ps.map TParam.means) → ∀ h e, s.tab i h = some e →
        ¬ SameKey (keysOf (d.tab i)) e.1 (ps.map TParam.means, prio)) ∧ PRefused (.table .badKey) r))
  | .entries => (s' = s ∧ L' = L) ∧ ∃ l, r = .entries l ∧ Live (s.tab i) (l.map IEntry.handle) ∧
    ∀ b ∈ l, ∃ e, s.tab i b.handle = some e ∧ IShows (d.tab i) e b
  | .getDefault => (s' = s ∧ L' = L) ∧ r = .ref (s.dflt i)
  | .count => (s' = s ∧ L' = L) ∧ ∃ l, Live (s.tab i) l ∧ r = .num l.length
  | .packet vals _ _ hash => (s' = s ∧ L' = L) ∧
    (((∀ h e, s.tab i h = some e → ¬ AllMatch paddedWidth (d.tab i).fs e.1.1 vals) ∧
        ((s.dflt i = none ∧ r = .look none .builtin) ∨
         ∃ ref x, s.dflt i = some ref ∧ s.Chosen hash ref x ∧ r = .look none x)) ∨
     ∃ h e x, IWins (d.tab i) (s.tab i) vals h e ∧ s.Chosen hash e.2 x ∧ r = .look (some h) x)

/-- Requests. -/
def ReqStep (d : PDecl n) (s : CState n) (L : Ref → Nat) (q : PReq) (s' : CState n) (L' : Ref → Nat) (r : PRes) : Prop :=
  match q with
  | .prof nm c => (nm = d.name ∧ ProfStep d s L c s' L' r) ∨
      (nm ≠ d.name ∧ (s' = s ∧ L' = L) ∧ PRefused .profileName r)
  | .tab nm c => (∃ i, (d.tab i).name = nm ∧ TabStep d i s L c s' L' r) ∨
      ((∀ i, (d.tab i).name ≠ nm) ∧ (s' = s ∧ L' = L) ∧
        PRefused (if nm ∈ d.direct then .tableType else .tableName) r)

/-- Allowed results of a history. -/
inductive ReqTrace (d : PDecl n) : CState n → (Ref → Nat) → List PReq → List PRes → CState n → (Ref → Nat) → Prop
  | nil (s L) : ReqTrace d s L [] [] s L
  | cons {s L s' L' s'' L'' q r qs rs} : ReqStep d s L q s' L' r → ReqTrace d s' L' qs rs s'' L'' →
      ReqTrace d s L (q :: qs) (r :: rs) s'' L''

/-! ## Declarations and histories considered -/

/-- Well-formed declarations. -/
structure PDecl.WF (d : PDecl n) : Prop where
  fields : ∀ i, ∀ f ∈ (d.tab i).fs, 1 ≤ f.nbits ∧ (∀ m, f.smask = some m → m.length = (f.nbits + 7) / 8) ∧
    (f.mtype = .valid → f.nbits = 8)
  kinds : ∀ i, FieldKinds (keysOf (d.tab i))
  size : ∀ i, (d.tab i).size ≤ 2 ^ 24
  names : ∀ i j, (d.tab i).name = (d.tab j).name → i = j
  direct : ∀ i, (d.tab i).name ∉ d.direct

/-- Requests about tables that change entries or the default. -/
def TCall.writes : TCall → Bool
  | .add _ _ _ _ | .delete _ | .modify _ _ | .setDefault _ | .resetDefault => true
  | _ => false

/-- Requests that count or remove all entries; they do not depend on the sort of table. -/
def TCall.anyTable : TCall → Bool
  | .count | .clear _ => true
  | _ => false

/-- Requests and packets considered.  Packets have proper field values.  For names of no profile or table the requests
that read are not considered (`C102_refuted_name`), and an entry is not looked up by an empty key.  For the names of
tables without action profile only the requests that write are considered (the others are those of C96). -/
def PConsidered (d : PDecl n) : PReq → Prop
  | .prof nm c => nm = d.name ∨ (c ≠ .getMembers ∧ c ≠ .getGroups)
  | .tab nm c =>
    (∀ i, (d.tab i).name = nm →
      match c with
      | .packet vals _ _ _ => ValuesOk (d.tab i).fs vals
      | .getByKey ps _ => ps ≠ []
      | _ => True) ∧
    ((∀ i, (d.tab i).name ≠ nm) → TCall.writes c = true ∨ (nm ∉ d.direct ∧ TCall.anyTable c = true))

/-- Not a refused change of an entry, except when the table, its sort or the handle is wrong: otherwise a reference is
lost (`C15_failed_modify_loses`). -/
def Lossless : PReq → PRes → Prop
  | .tab _ (.modify _ _), .exc c => PExc.why c = some .tableName ∨ PExc.why c = some .tableType ∨
      ∃ e, PExc.why c = some (.table e)
  | _, _ => True

/-- How many references one request can leave behind. -/
def left1 (d : PDecl n) : PReq → Nat
  | .tab _ (.add _ _ _ _) => 1
  | .tab nm (.clear _) => ((List.finRange n).map fun i => if (d.tab i).name = nm then (d.tab i).size + 1 else 0).sum
  | _ => 0

/-- How many references a history can leave behind. -/
def left (d : PDecl n) (qs : List PReq) : Nat := (qs.map (left1 d)).sum

end Spec
end Bm.Thrift
