import Verif.Spec.Table

/-!
# Specification of a table with actions (C61, C62)

A table is declared by the program: its actions with the node to go to after each of them, optionally nodes for hit
and miss, optionally a default entry (whose action, or whose whole entry, may be constant), optionally constant
entries.  The state is a finite map from handles to keys and actions with data, and the current default.
-/

namespace Bm.Spec

/-- An action: its identity and its number of parameters. -/
structure ActFn where
  id : Nat
  nparams : Nat
  deriving DecidableEq, Repr

/-- The default entry of a declaration. -/
structure DefaultDecl where
  fn : ActFn
  data : List Int
  constAction : Bool
  constEntry : Bool

/-- The declaration of a table.  A node is a number; `none` is the end of the pipeline. -/
structure TableDecl (K : Type) where
  actions : List (ActFn × Option Nat)
  /-- the nodes to go to after a hit and after a miss -/
  hitMiss : Option (Option Nat × Option Nat)
  /-- the node to go to when there is no default action -/
  base : Option (Option Nat)
  dflt : Option DefaultDecl
  /-- constant entries -/
  entries : Option (List (K × ActFn × List Int))

variable {K : Type}

/-- The node after an action. -/
def TableDecl.after (P : TableDecl K) (id : Nat) : Option Nat :=
  match P.actions.find? (fun x => x.1.id = id) with
  | some x => x.2
  | none => none

/-- The node to go to after the table: that for hit or miss when the table has such, otherwise that of the action, or,
without any action, the base node. -/
def TableDecl.goto (P : TableDecl K) (hit : Bool) (act : Option (ActFn × List Int)) : Option Nat :=
  match P.hitMiss, act with
  | some (h, m), _ => if hit then h else m
  | none, some (f, _) => P.after f.id
  | none, none => P.base.getD none

/-- The initial default. -/
def TableDecl.default0 (P : TableDecl K) : Option (ActFn × List Int) := P.dflt.map fun d => (d.fn, d.data)

/-- Reasons for refusing a call. -/
inductive AErr
  | table (e : TErr)
  | badData | constEntries | constEntry | constAction | noDefault
  deriving DecidableEq, Repr

/-- Calls, and the application of the table to a packet with lookup key `q`. -/
inductive AOp (K : Type)
  | add (k : Option K) (f : ActFn) (data : List Int) (now : Nat)
  | delete (h : Nat)
  | modify (h : Nat) (f : ActFn) (data : List Int)
  | setDefault (f : ActFn) (data : List Int)
  | resetDefault
  | get (h : Nat)
  | getByKey (k : Option K)
  | entries
  | getDefault
  /-- how many entries there are -/
  | count
  /-- remove the entries, and optionally reset the default -/
  | clear (d : Bool)
  | apply (q : List UInt8) (nbytes ts : Nat)

/-- Results. -/
inductive AOut (K : Type)
  | err (e : AErr)
  | done
  | handle (h : Nat)
  | entry (h : Nat) (k : K) (f : ActFn) (data : List Int)
  | entries (l : List (Nat × K × ActFn × List Int))
  | default (f : ActFn) (data : List Int)
  | num (n : Nat)
  /-- the action run, with its data (if there is one), the handle of the matching entry, the index recorded in the
  packet, and the next node -/
  | ran (act : Option (ActFn × List Int)) (hit : Option Nat) (index : Nat) (next : Option Nat)
  deriving DecidableEq

/-- State: entries and default. -/
structure AState (K : Type) where
  T : Nat → Option (K × (ActFn × List Int))
  D : Option (ActFn × List Int)

/-- How results of the map of entries are reported. -/
def liftOut {V : Type} : TOut K V → AOut K
  | .err e => .err (.table e)
  | .handle h => .handle h
  | _ => .done

/-- A call on the map of entries, the default staying as it is. -/
def OnEntries (sp : MatchSpec K) (size : Nat) (keyless : Bool) (s : AState K) (op : TOp K (ActFn × List Int))
    (s' : AState K) (out : AOut K) : Prop :=
  ∃ o, TStep sp size keyless s.T op s'.T o ∧ s'.D = s.D ∧ out = liftOut o

/-- Allowed transitions. -/
def AStep (P : TableDecl K) (sp : MatchSpec K) (size : Nat) (keyless : Bool) (s : AState K) :
    AOp K → AState K → AOut K → Prop
  | .add k f data now, s', out =>
    if P.entries.isSome then s' = s ∧ out = .err .constEntries
    else if data.length ≠ f.nparams then s' = s ∧ out = .err .badData
    else OnEntries sp size keyless s (.add k (f, data) now) s' out
  | .delete h, s', out =>
    if P.entries.isSome then s' = s ∧ out = .err .constEntries
    else OnEntries sp size keyless s (.delete h) s' out
  | .modify h f data, s', out =>
    if P.entries.isSome then s' = s ∧ out = .err .constEntries
    else if data.length ≠ f.nparams then s' = s ∧ out = .err .badData
    else OnEntries sp size keyless s (.modify h (f, data)) s' out
  | .setDefault f data, s', out =>
    if ∃ d, P.dflt = some d ∧ d.constEntry = true then s' = s ∧ out = .err .constEntry
    else if ∃ d, P.dflt = some d ∧ d.constAction = true ∧ d.fn ≠ f then s' = s ∧ out = .err .constAction
    else if data.length ≠ f.nparams then s' = s ∧ out = .err .badData
    else s' = { s with D := some (f, data) } ∧ out = .done
  | .resetDefault, s', out => s' = { s with D := P.default0 } ∧ out = .done
  | .get h, s', out => s' = s ∧
    match s.T h with
    | some (k, f, data) => out = .entry h k f data
    | none => out = .err (.table .stale)
  | .getByKey key, s', out => s' = s ∧
    ((∃ k h k' f data, key = some k ∧ s.T h = some (k', f, data) ∧ sp.same k' k ∧ out = .entry h k' f data) ∨
     ((∀ k, key = some k → ¬ HasSame sp s.T k) ∧ out = .err (.table .badKey)))
  | .entries, s', out => s' = s ∧
    ∃ l, out = .entries l ∧ Live s.T (l.map Prod.fst) ∧ ∀ e ∈ l, s.T e.1 = some e.2
  | .getDefault, s', out => s' = s ∧
    match s.D with
    | some (f, data) => out = .default f data
    | none => out = .err .noDefault
  | .count, s', out => s' = s ∧ ∃ l, Live s.T l ∧ out = .num l.length
  | .clear d, s', out => s' = { T := fun _ => none, D := if d then P.default0 else s.D } ∧ out = .done
  | .apply q _ _, s', out => s' = s ∧
    ((∀ h k a, s.T h = some (k, a) → ¬ sp.m q k) ∧ out = .ran s.D none (2 ^ 64 - 1) (P.goto false s.D) ∨
     ∃ h k a, s.T h = some (k, a) ∧ sp.m q k ∧
      (∀ h' k' a', s.T h' = some (k', a') → sp.m q k' →
        sp.prio k < sp.prio k' ∨ (sp.prio k = sp.prio k' ∧ slotOf h ≤ slotOf h')) ∧
      out = .ran (some a) (some h) (slotOf h) (P.goto true (some a)))

/-- Obligations of the caller: keys are well formed, and the actions are actions of the table. -/
def AOp.Valid (P : TableDecl K) (sp : MatchSpec K) : AOp K → Prop
  | .add k f _ _ => (∀ k', k = some k' → sp.okK k') ∧ f ∈ P.actions.map Prod.fst
  | .modify _ f _ => f ∈ P.actions.map Prod.fst
  | .setDefault f _ => f ∈ P.actions.map Prod.fst
  | .getByKey k => ∀ k', k = some k' → sp.okK k'
  | .apply q _ _ => sp.okQ q
  | _ => True

/-- Initial states: exactly the declared entries, each under a handle of its own, and the declared default. -/
def TableDecl.Start (P : TableDecl K) (s : AState K) : Prop :=
  s.D = P.default0 ∧
  ∃ hs : List Nat, Live s.T hs ∧ hs.map s.T = (P.entries.getD []).map fun e => some (e.1, e.2.1, e.2.2)

/-- Allowed results of a history. -/
inductive ATrace (P : TableDecl K) (sp : MatchSpec K) (size : Nat) (keyless : Bool) :
    AState K → List (AOp K) → List (AOut K) → AState K → Prop
  | nil (s) : ATrace P sp size keyless s [] [] s
  | cons {s s' s'' op out ops outs} : AStep P sp size keyless s op s' out →
      ATrace P sp size keyless s' ops outs s'' → ATrace P sp size keyless s (op :: ops) (out :: outs) s''

/-- Declarations considered: the names of actions are unique and the keys of the entries well formed. -/
structure TableDecl.WF (P : TableDecl K) (sp : MatchSpec K) : Prop where
  ids : (P.actions.map fun x => x.1.id).Nodup
  entries : ∀ l, P.entries = some l → ∀ e ∈ l, sp.okK e.1 ∧ e.2.1 ∈ P.actions.map Prod.fst

/-- Declarations that have to be accepted for a table of the given size: the default entry and the constant entries
use actions of the table with the right amount of data; the constant entries fit and have different keys. -/
structure TableDecl.Sound (P : TableDecl K) (sp : MatchSpec K) (size : Nat) (keyless : Bool) : Prop extends P.WF sp where
  dflt : ∀ d, P.dflt = some d → d.fn ∈ P.actions.map Prod.fst ∧ d.data.length = d.fn.nparams
  key : P.entries.getD [] ≠ [] → keyless = false
  data : ∀ e ∈ P.entries.getD [], e.2.2.length = e.2.1.nparams
  fits : (P.entries.getD []).length ≤ size
  distinct : (P.entries.getD []).Pairwise fun e e' => ¬ sp.same e.1 e'.1

end Bm.Spec
