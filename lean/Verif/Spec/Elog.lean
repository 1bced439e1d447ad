import Verif.Spec.Pipeline

/-!
# Specification of the event log (C101)

Things happen to packets: they are received, parsed, matched, rewritten, sent.  Each is reported with the identity of the
packet.  A reader who knows the program, but not the packets and not the entries, follows a packet from node to node by
the reports alone.
-/

namespace Bm.Elog
open Spec Pipe

/-- The packet: switch, context, signature, number, number of the copy. -/
structure Pk where
  dev : Nat
  cxt : Nat
  sig : Nat
  id : Nat
  copy : Nat
  deriving DecidableEq, Repr

/-- What happens, with the numbers of the objects. -/
inductive Ev
  | packetIn (port : Int)
  | packetOut (port : Int)
  | parserStart (id : Int)
  | parserDone (id : Int)
  | extract (id : Int)
  | deparserStart (id : Int)
  | deparserDone (id : Int)
  | emit (id : Int)
  | checksum (id : Int)
  | pipeStart (id : Int)
  | pipeDone (id : Int)
  | cond (id : Int) (result : Bool)
  | hit (id : Int) (handle : Int)
  | miss (id : Int)
  | action (id : Int)
  deriving DecidableEq, Repr

/-- Kinds of objects. -/
inductive Kind
  | parser | header | deparser | checksum | pipeline | condition | table | action
  deriving DecidableEq, Repr

/-- The object an event is about. -/
def Ev.object : Ev → Option (Kind × Int)
  | .packetIn _ | .packetOut _ => none
  | .parserStart i | .parserDone i => some (.parser, i)
  | .extract i | .emit i => some (.header, i)
  | .deparserStart i | .deparserDone i => some (.deparser, i)
  | .checksum i => some (.checksum, i)
  | .pipeStart i | .pipeDone i => some (.pipeline, i)
  | .cond i _ => some (.condition, i)
  | .hit i _ | .miss i => some (.table, i)
  | .action i => some (.action, i)

/-- The objects of a program, with their names. -/
abbrev Objects := List ((Kind × Int) × String)

/-- A line of the log: the packet, the event, the name of the object.  `change` is the report of a new program. -/
inductive Line
  | event (pk : Pk) (e : Ev) (name : Option String)
  | change (dev : Nat)
  deriving DecidableEq, Repr

/-- What happens in a switch. -/
inductive Item
  | event (pk : Pk) (e : Ev)
  /-- another program replaces the one that runs -/
  | change (objs : Objects)

/-- The name of an object: none, or one the program gives to it. -/
def NameOk (objs : Objects) (o : Option (Kind × Int)) (name : Option String) : Prop :=
  match name with
  | some s => ∃ x, o = some x ∧ (x, s) ∈ objs
  | none => ∀ x s, o = some x → (x, s) ∈ objs → s = ""

/-- The true log of what happens in the switch `dev`, `objs` being the objects of the program that runs. -/
inductive Log (dev : Nat) : Objects → List Item → List Line → Prop
  | nil (objs) : Log dev objs [] []
  | event {objs pk e name is ls} : NameOk objs e.object name → Log dev objs is ls →
      Log dev objs (.event pk e :: is) (.event pk e name :: ls)
  | change {objs objs' is ls} : Log dev objs' is ls → Log dev objs (.change objs' :: is) (.change dev :: ls)

/-- Numbers that fit into the messages. -/
def I32 (x : Int) : Prop := -2 ^ 31 ≤ x ∧ x < 2 ^ 31

/-- The packet of a message. -/
structure Pk.Fits (p : Pk) : Prop where
  dev : p.dev < 2 ^ 64
  cxt : p.cxt < 2 ^ 32
  sig : p.sig < 2 ^ 64
  id : p.id < 2 ^ 64
  copy : p.copy < 2 ^ 64

/-- The event of a message. -/
def Ev.Fits : Ev → Prop
  | .packetIn i | .packetOut i | .parserStart i | .parserDone i | .extract i | .emit i | .deparserStart i
  | .deparserDone i | .checksum i | .pipeStart i | .pipeDone i | .cond i _ | .miss i | .action i => I32 i
  | .hit i h => I32 i ∧ I32 h

/-- Objects of one kind have different numbers. -/
def Distinct (objs : Objects) : Prop := ∀ o s s', (o, s) ∈ objs → (o, s') ∈ objs → s = s'

/-- The programs that are changed to. -/
def configs (is : List Item) : List Objects := is.filterMap fun | .change objs => some objs | .event .. => none

/-- Items that fit into messages. -/
def Item.Fits : Item → Prop
  | .event pk e => pk.Fits ∧ e.Fits
  | .change objs => Distinct objs

/-- The event a line, or an item, has about a packet. -/
def Line.about (pk : Pk) : Line → Option Ev
  | .event p e _ => if p = pk then some e else none
  | .change _ => none
def Item.about (pk : Pk) : Item → Option Ev
  | .event p e => if p = pk then some e else none
  | .change _ => none

/-! ## The walk of a packet, with what is to be reported -/

section
variable {K : Nat → Type} {σ : Type}

/-- The numbers of tables and conditionals. -/
structure Ids where
  table : Nat → Int
  cond : Nat → Int

/-- The report on a table. -/
def Ids.look (ids : Ids) (n : Nat) : Option Nat → Ev
  | some h => .hit (ids.table n) h
  | none => .miss (ids.table n)

/-- The report on an action. -/
def ran : Option (ActFn × List Int) → List Ev
  | some (f, _) => [.action f.id]
  | none => []

/-- Walks, with the events in order: the value of each condition, the outcome of each lookup with the handle of the entry,
each action. -/
inductive Told (ids : Ids) (sem : Sem σ) (sp : (n : Nat) → MatchSpec (K n)) (P : Prog K σ) (T : (n : Nat) → AState (K n)) :
    Option Nat → σ → List Nat → List Ev → Stop σ → Prop
  | stop (s) : Told ids sem sp P T none s [] [] (.ended s)
  | exit (n s) : sem.exit s = true → Told ids sem sp P T (some n) s [] [] (.ended s)
  | pause (n s) : sem.exit s = false → Told ids sem sp P T (some n) s [] [] (.atNode n s)
  | cond {n s ev t f b l es r} : sem.exit s = false → P.Has n (.cond ev t f) → ev s = some b →
      Told ids sem sp P T ((if b then t else f).getD none) s l es r →
      Told ids sem sp P T (some n) s (n :: l) (.cond (ids.cond n) b :: es) r
  | call {n s fn next s' l es r} : sem.exit s = false → P.Has n (.call fn next) → sem.act fn [] s = some s' →
      Told ids sem sp P T next s' l es r → Told ids sem sp P T (some n) s (n :: l) (.action fn.id :: es) r
  | table {n s t a hit index next s' l es r} : sem.exit s = false → P.Has n (.table t) →
      AStep t.decl (sp n) t.size (decide (t.sizeKey = 0)) (T n) (.apply (t.key s) (t.nbytes s) (t.ts s)) (T n)
        (.ran a hit index next) → sem.run a (sem.mark hit index s) = some s' →
      Told ids sem sp P T next s' l es r →
      Told ids sem sp P T (some n) s (n :: l) (ids.look n hit :: (ran a ++ es)) r

/-- What a reader concludes who knows the program only: the nodes a packet has passed.  After the report on a table
there is one on its action. -/
inductive Reads (ids : Ids) (P : Prog K σ) : Option Nat → List Ev → List Nat → Prop
  | stop (o) : Reads ids P o [] []
  | cond {n ev t f b es l} : P.Has n (.cond ev t f) → Reads ids P ((if b then t else f).getD none) es l →
      Reads ids P (some n) (.cond (ids.cond n) b :: es) (n :: l)
  | call {n fn next es l} : P.Has n (.call fn next) → Reads ids P next es l →
      Reads ids P (some n) (.action fn.id :: es) (n :: l)
  | table {n t hit a es l} : P.Has n (.table t) → Reads ids P (t.decl.goto (Option.isSome hit) (some (⟨a, 0⟩, []))) es l →
      Reads ids P (some n) (ids.look n hit :: .action a :: es) (n :: l)

/-- All tables declare a default. -/
def Prog.Defaults (P : Prog K σ) : Prop := ∀ n t, P.Has n (.table t) → t.decl.dflt.isSome = true

end

end Bm.Elog
