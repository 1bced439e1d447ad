import Verif.Spec.Debugger
import Mathlib.Data.List.Forall2

/-!
# What the command line tool of the debugger does (C109)

Everything is read off what happened: commands, what is printed, interrupts, and what packets do, newest
first.  What packets did (`inside`, `value`, `places`) is as for the debugger (C95).
-/

namespace Bm.P4dbg.Spec

open Bm.Debugger.Spec (Pid Pkt Vis inside value places ctrField)

/-- A program: headers (number, name, names of the fields) and objects (kind, number, name). -/
structure Program where
  headers : List (Nat × String × List String)
  objs : List (Nat × Nat × String)

/-- The field that stands for the result of a condition. -/
def condField : Nat := 2 ^ 64 - 2

/-- The field that stands for the action of a table. -/
def actionField : Nat := 2 ^ 64 - 3

/-- Kinds of objects. -/
def kinds : List String := ["parser", "parse_state", "pipeline", "table", "condition", "action", "deparser"]

/-- The name means the field. -/
def Named (P : Program) (f : String) (id : Nat) : Prop :=
  (f = "$cond" ∧ id = condField) ∨ (f = "$action" ∧ id = actionField) ∨
  (f ≠ "$cond" ∧ f ≠ "$action" ∧ ∃ h ∈ P.headers, ∃ i n, (h.2.2 ++ ["$valid$"])[i]? = some n ∧
    f = h.2.1 ++ "." ++ n ∧ id = h.1 * 2 ^ 32 + i)

/-- The kind and the name mean the place in the program. -/
def Place (P : Program) (t o : String) (v : Nat) : Prop :=
  ∃ k i, (k + 1, i, o) ∈ P.objs ∧ kinds[k]? = some t ∧ v = (k + 1) * 2 ^ 24 + i

/-- Names and numbers are unambiguous and fit. -/
structure Program.Ok (P : Program) : Prop where
  name : ∀ f i j, Named P f i → Named P f j → i = j
  num : ∀ f g i, Named P f i → Named P g i → f = g
  hdr : ∀ h ∈ P.headers, h.1 < 2 ^ 31 ∧ h.2.2.length < 2 ^ 31
  special : ∀ h ∈ P.headers, ∀ n ∈ h.2.2 ++ ["$valid$"], h.2.1 ++ "." ++ n ≠ "$cond" ∧ h.2.1 ++ "." ++ n ≠ "$action"
  place : ∀ t o v w, Place P t o v → Place P t o w → v = w
  obj : ∀ t o t' o' v, Place P t o v → Place P t' o' v → t = t' ∧ o = o'
  kind : ∀ x ∈ P.objs, 1 ≤ x.1 ∧ x.1 ≤ 7 ∧ x.2.1 < 2 ^ 24

/-- Commands. -/
inductive Cmd
  | attach | eof
  | cont | next | reset
  | setWp (f : String) | unsetWp (f : String) | showWps
  | brk (t o : String) | delete (t o : String) | showBps
  | print (p : Option (Int × Int)) (f : String)
  | bt (p : Option (Int × Int))
  | breakIn | removeIn | stopIn | resumeIn
  | filter (l : List (Int × Int))
  | skip | skipAll
deriving DecidableEq, Repr

/-- What is told when the program stops. -/
inductive Shown
  | packetIn
  | field (f : String) (b : Bytes) (v : Nat)
  | enter (t o : String)
  | exit (t o : String)
  | cond (b : Bool)
  | silent
deriving DecidableEq, Repr

/-- What is printed. -/
inductive Out
  | done | error | stopped | bye | gone | noValue | notSet | newConfig
  | event (p : Pid) (s : Shown)
  | value (b : Bytes) (v : Nat)
  | trace (l : List (String × String))
  | names (l : List String)
  | objs (l : List (String × String))
deriving DecidableEq, Repr

/-- What happens: the tool is started, a command, what is printed, what a packet does, an interrupt. -/
inductive UVis
  | up
  | cmd (c : Cmd)
  | out (o : Out)
  | pkt (e : Pkt)
  | intr
deriving DecidableEq, Repr

/-- The tool is running. -/
def on : List UVis → Bool
  | [] => false
  | .up :: _ => true
  | .out .bye :: _ => false
  | _ :: u => on u

/-- The command that is not done. -/
def pend : List UVis → Option Cmd
  | [] => none
  | .up :: _ => some .attach
  | .cmd c :: _ => some c
  | .out _ :: _ => none
  | _ :: u => pend u

/-- There is a watchpoint for the field. -/
def Watched (P : Program) (id : Nat) : List UVis → Prop
  | [] => False
  | .up :: _ => False
  | .cmd .reset :: _ => False
  | .cmd (.setWp f) :: u => Named P f id ∨ Watched P id u
  | .cmd (.unsetWp f) :: u => ¬ Named P f id ∧ Watched P id u
  | _ :: u => Watched P id u

/-- There is a breakpoint at the place. -/
def BreakAt (P : Program) (v : Nat) : List UVis → Prop
  | [] => False
  | .up :: _ => False
  | .cmd .reset :: _ => False
  | .cmd (.brk t o) :: u => Place P t o v ∨ BreakAt P v u
  | .cmd (.delete t o) :: u => ¬ Place P t o v ∧ BreakAt P v u
  | _ :: u => BreakAt P v u

/-- Stop at packets that come in. -/
def BreaksIn : List UVis → Prop
  | [] => False
  | .up :: _ => False
  | .cmd .reset :: _ => False
  | .cmd .breakIn :: _ => True
  | .cmd .removeIn :: _ => False
  | _ :: u => BreaksIn u

/-- No new packets. -/
def StopsIn : List UVis → Prop
  | [] => False
  | .up :: _ => False
  | .cmd .reset :: _ => False
  | .cmd .stopIn :: _ => True
  | .cmd .resumeIn :: _ => False
  | _ :: u => StopsIn u

/-- The packet of the last event. -/
def current : List UVis → Option Pid
  | [] => none
  | .up :: _ => none
  | .cmd .reset :: _ => none
  | .out (.event p _) :: _ => some p
  | _ :: u => current u

/-- The packet is to be skipped. -/
def Skipped (p : Pid) : List UVis → Prop
  | [] => False
  | .up :: _ => False
  | .cmd .reset :: _ => False
  | .cmd .skip :: u => current u = some p ∨ Skipped p u
  | .cmd .skipAll :: u => (∃ q, current u = some q ∧ q.1 = p.1) ∨ Skipped p u
  | _ :: u => Skipped p u

/-- The command going on has been interrupted. -/
def Interrupted : List UVis → Prop
  | .intr :: _ => True
  | .pkt _ :: u => Interrupted u
  | _ => False

/-- There was an interrupt that did not stop anything. -/
def Stale : List UVis → Prop
  | [] => False
  | .up :: _ => False
  | .cmd .reset :: _ => False
  | .intr :: _ => True
  | .out .stopped :: _ => False
  | _ :: u => Stale u

/-- No `reset` since the tool was started. -/
def Fresh : List UVis → Prop
  | [] => False
  | .up :: _ => True
  | .cmd .reset :: _ => False
  | _ :: u => Fresh u

/-- What packets did. -/
def pkts : List UVis → List Vis
  | [] => []
  | .pkt e :: u => .pkt e :: pkts u
  | _ :: u => pkts u

/-- A number in bytes, the most significant one first. -/
def bigEnd : Bytes → Nat
  | [] => 0
  | b :: l => b.toNat * 256 ^ l.length + bigEnd l

/-- The user wants the program to stop after this. -/
def Wants (P : Program) (u : List UVis) : Pkt → Prop
  | .enter p _ => ¬ Skipped p u ∧ (pend u = some .next ∨ BreaksIn u)
  | .upd p id _ => ¬ Skipped p u ∧ (pend u = some .next ∨ Watched P id u)
  | .ctr p v => ¬ Skipped p u ∧ (pend u = some .next ∨ BreakAt P v u)
  | .leave _ => False

/-- The program has stopped after this. -/
def Stop (P : Program) : List UVis → Pkt → Prop
  | .pkt e :: u, e' => e = e' ∧ Wants P u e
  | .intr :: u, e' => Stop P u e'
  | _, _ => False

/-- `continue` or `next`. -/
def goes : Cmd → Bool
  | .cont => true
  | .next => true
  | _ => false

/-- Packets may go on. -/
def Free (P : Program) (u : List UVis) : Prop :=
  on u = false ∨ pend u = some .attach ∨ pend u = some .eof ∨
  ((∃ c, pend u = some c ∧ goes c = true) ∧ ∀ e, ¬ Stop P u e)

/-- What is told of an event. -/
def Tells (P : Program) : Pkt → Shown → Prop
  | .enter _ _, s => s = .packetIn
  | .upd _ id b, s =>
    (id = condField ∧ s = .cond (decide (bigEnd b ≠ 0))) ∨ (id = actionField ∧ s = .silent) ∨
    (id ≠ condField ∧ id ≠ actionField ∧ ∃ f, Named P f id ∧ s = .field f b (bigEnd b))
  | .ctr _ v, s => ∃ t o w, Place P t o w ∧ ((v = w ∧ s = .enter t o) ∨ (v = w + 2 ^ 31 ∧ s = .exit t o))
  | .leave _, _ => False

/-- The packet a command is about: the one given, or the current one. -/
def subject (u : List UVis) : Option (Int × Int) → Option Pid
  | some p => some (p.1.toNat, p.2.toNat)
  | none => current u

/-- What commands other than `continue` and `next` print; `u`: what happened before. -/
def Answer (P : Program) (u : List UVis) : Cmd → Out → Prop
  | .setWp f, o => ((∃ id, Named P f id) ∧ o = .done) ∨ ((¬ ∃ id, Named P f id) ∧ o = .error)
  | .unsetWp f, o => ((∃ id, Named P f id ∧ Watched P id u) ∧ o = .done) ∨
      ((¬ ∃ id, Named P f id ∧ Watched P id u) ∧ o = .error)
  | .showWps, o => ∃ l, o = .names l ∧ ∀ f, f ∈ l ↔ ∃ id, Named P f id ∧ Watched P id u
  | .brk t n, o => ((∃ v, Place P t n v) ∧ o = .done) ∨ ((¬ ∃ v, Place P t n v) ∧ o = .error)
  | .delete t n, o => ((∃ v, Place P t n v ∧ BreakAt P v u) ∧ o = .done) ∨
      ((¬ ∃ v, Place P t n v ∧ BreakAt P v u) ∧ o = .error)
  | .showBps, o => ∃ l, o = .objs l ∧ ∀ x, x ∈ l ↔ ∃ v, Place P x.1 x.2 v ∧ BreakAt P v u
  | .print p f, o =>
    ((subject u p = none ∨ ¬ ∃ id, Named P f id) ∧ o = .error) ∨
    ∃ q id, subject u p = some q ∧ Named P f id ∧
      ((inside q (pkts u) = false ∧ o = .gone) ∨
       (inside q (pkts u) = true ∧ value q id (pkts u) = none ∧ o = .noValue) ∨
       (inside q (pkts u) = true ∧ ∃ b, value q id (pkts u) = some b ∧ o = .value b (bigEnd b)))
  | .bt p, o =>
    (subject u p = none ∧ o = .error) ∨
    ∃ q, subject u p = some q ∧
      ((inside q (pkts u) = false ∧ o = .gone) ∨
       (inside q (pkts u) = true ∧ ∃ l, o = .trace l ∧
          List.Forall₂ (fun v x => Place P x.1 x.2 v) (places q (pkts u)) l))
  | _, o => o = .done

/-- Sessions as they should be; `intr` tells when `continue` and `next` may end without an event. -/
inductive Good (P : Program) (intr : List UVis → Prop) : List UVis → Prop
  | nil : Good P intr []
  | up {u} : Good P intr u → on u = false → Good P intr (.up :: u)
  | cmd {u c} : Good P intr u → on u = true → pend u = none → Good P intr (.cmd c :: u)
  | intr {u c} : Good P intr u → pend u = some c → goes c = true → Good P intr (.intr :: u)
  | pkt {u e} : Good P intr u → Free P u →
      ((∃ c, pend u = some c ∧ goes c = true) → ∀ p port, e = .enter p port → StopsIn u →
        ∃ c, inside (p.1, c) (pkts u) = true) → Good P intr (.pkt e :: u)
  | attached {u} : Good P intr u → pend u = some .attach → Good P intr (.out .done :: u)
  | bye {u} : Good P intr u → pend u = some .eof → Good P intr (.out .bye :: u)
  | answer {u c o} : Good P intr (.cmd c :: u) → goes c = false → c ≠ .attach → c ≠ .eof → Answer P u c o →
      Good P intr (.out o :: .cmd c :: u)
  | event {u c e s} : Good P intr u → pend u = some c → goes c = true → Stop P u e → Tells P e s →
      Good P intr (.out (.event e.pid s) :: u)
  | stopped {u c} : Good P intr u → pend u = some c → goes c = true → (∀ e, ¬ Stop P u e) → intr u →
      Good P intr (.out .stopped :: u)

/-- What packets may do: they come in, do something that the program knows of, and leave. -/
def Fits (P : Program) (u : List UVis) (e : Pkt) : Prop :=
  Bm.Debugger.Spec.Polite (pkts u) (.pkt e) ∧ e.pid.1 < 2 ^ 64 ∧ e.pid.2 < 2 ^ 64 ∧
  match e with
  | .enter _ port => -2 ^ 31 ≤ port ∧ port < 2 ^ 31
  | .leave _ => True
  | .upd _ id _ => ∃ f, Named P f id
  | .ctr p v => (∃ t o w, Place P t o w ∧ (v = w ∨ v = w + 2 ^ 31)) ∧ (places p (pkts u)).length < 54

/-- Commands that the tool does not fail at. -/
def Careful (P : Program) (u : List UVis) (c : Cmd) : Prop :=
  u.length + 1 < 2 ^ 64 ∧ c ≠ .attach ∧
  match c with
  | .filter _ => False
  | .removeIn => BreaksIn u
  | .resumeIn => StopsIn u
  | .showWps => ¬ Watched P condField u ∧ ¬ Watched P actionField u
  | .print (some p) _ => 0 ≤ p.1 ∧ p.1 < 2 ^ 64 ∧ 0 ≤ p.2 ∧ p.2 < 2 ^ 64
  | .bt (some p) => 0 ≤ p.1 ∧ p.1 < 2 ^ 64 ∧ 0 ≤ p.2 ∧ p.2 < 2 ^ 64
  | _ => True

end Bm.P4dbg.Spec
