import Verif.Model.SsMgmt
import Verif.Lemmas.Queueing

/-!
# Mirroring sessions and queue settings, as users see them (C112)

A session is a number between 0 and 32767 with a port, a group, both or none.  Every line (port and priority) has a depth and a
rate.  All interfaces are about these.
-/

namespace Bm.SsMgmt.Spec

open Bm.Spec.Queueing

variable {T : Type}

/-- Sessions (port and group) and waiting lines. -/
structure St (T : Type) where
  sess : Int → Option (Option Nat × Option Nat) := fun _ => none
  lines : Lines T

/-- The lines a setting is for. -/
inductive Where | all | port (p : Nat) | line (p i : Nat)
  deriving DecidableEq

/-- The line of port `p` and priority `i` is one of them. -/
def Where.Has : Where → Nat → Nat → Prop
  | .all, _, _ => True
  | .port p, q, _ => q = p
  | .line p i, q, j => q = p ∧ j = i

instance (w : Where) (q j : Nat) : Decidable (w.Has q j) := by
  cases w <;> simp only [Where.Has] <;> infer_instance

/-- The priority exists. -/
def Where.Known (nb : Nat) : Where → Prop
  | .line _ i => i < nb
  | _ => True

instance (nb : Nat) (w : Where) : Decidable (w.Known nb) := by
  cases w <;> simp only [Where.Known] <;> infer_instance

/-- A setting for a port brings its queue to life. -/
def Where.touch (t : Int) (S : Lines T) : Where → Lines T
  | .all => S
  | .port p => S.touch p t
  | .line p _ => S.touch p t

/-- What users want. -/
inductive Want
  | add (id : Int) (port group : Option Nat)
  | del (id : Int)
  | get (id : Int)
  | getPort (id : Int)
  | depth (w : Where) (n : Nat)
  | rate (w : Where) (pps : Nat)
  deriving DecidableEq

/-- What they should be told. -/
inductive Told
  | ok
  | refused
  | value (port group : Option Nat)
  | port (p : Option Nat)
  deriving DecidableEq

/-- What should happen. -/
def want (nb : Nat) (ticks : Nat → Nat) (t : Int) (st : St T) : Want → St T × Told
  | .add id p g =>
    if 0 ≤ id ∧ id < 32768 then ({ st with sess := fun i => if i = id then some (p, g) else st.sess i }, .ok)
    else (st, .refused)
  | .del id =>
    if (st.sess id).isSome then ({ st with sess := fun i => if i = id then none else st.sess i }, .ok)
    else (st, .refused)
  | .get id =>
    match st.sess id with
    | some (p, g) => (st, .value p g)
    | none => (st, .refused)
  | .getPort id => (st, .port ((st.sess id).bind Prod.fst))
  | .depth w n =>
    if w.Known nb then
      ({ st with lines := { w.touch t st.lines with depth := fun q i => if w.Has q i then n else st.lines.depth q i } }, .ok)
    else ({ st with lines := w.touch t st.lines }, .refused)
  | .rate w n =>
    if w.Known nb then
      ({ st with lines := { w.touch t st.lines with
        interval := fun q i => if w.Has q i then ticks n else st.lines.interval q i } }, .ok)
    else ({ st with lines := w.touch t st.lines }, .refused)

/-- A number which is not negative. -/
def nat? {w : Nat} (x : BitVec w) : Option Nat := if 0 ≤ x.toInt then some x.toNat else none

/-- What a request over Thrift wants; settings of queues have no meaning for negative numbers. -/
def _root_.Bm.SsMgmt.Rpc.want : Rpc → Option Want
  | .mapAdd id port => some (.add id.toInt (some port.toNat) none)
  | .mapDel id => some (.del id.toInt)
  | .mapGet id => some (.getPort id.toInt)
  | .sessAdd id port group => some (.add id.toInt (port.map BitVec.toNat) (group.map BitVec.toNat))
  | .sessDel id => some (.del id.toInt)
  | .sessGet id => some (.get id.toInt)
  | .depthPri p i n => do return .depth (.line (← nat? p) (← nat? i)) (← nat? n)
  | .depth p n => do return .depth (.port (← nat? p)) (← nat? n)
  | .depthAll n => do return .depth .all (← nat? n)
  | .ratePri p i n => do return .rate (.line (← nat? p) (← nat? i)) (← nat? n)
  | .rate p n => do return .rate (.port (← nat? p)) (← nat? n)
  | .rateAll n => do return .rate .all (← nat? n)

/-- The answer over Thrift.  What is said about a session which could not be added is left open (`C112_refuted_add`). -/
def Answers : Rpc → Told → Reply → Prop
  | .mapAdd _ _, w, a => a = .int (if w = .ok then 1 else 0)
  | .mapDel _, w, a => a = .int (if w = .ok then 1 else 0)
  | .mapGet _, w, a => (∃ p, w = .port (some p) ∧ a = .int (BitVec.ofNat 32 p)) ∨ (w = .port none ∧ a = .int (-1))
  | .sessAdd _ _ _, w, a => w = .ok → a = .void
  | .sessDel _, w, a => (w = .ok ∧ a = .void) ∨ (w = .refused ∧ a = .notFound)
  | .sessGet _, w, a => (∃ p g, w = .value p g ∧ a = .config (p.map (BitVec.ofNat 32)) (g.map (BitVec.ofNat 32))) ∨
      (w = .refused ∧ a = .notFound)
  | _, w, a => (w = .ok ∧ a = .int 0) ∨ (w = .refused ∧ a = .exception)

/-- What a call of PD wants. -/
def _root_.Bm.SsMgmt.Pd.want : Pd → Want
  | .create id port => .add id.toNat (some port.toNat) none
  | .update id port => .add id.toNat (some port.toNat) none
  | .delete id => .del id.toNat

/-- What a configuration of PI says. -/
def _root_.Bm.SsMgmt.PiConf.want (c : PiConf) (id : BitVec 32) : Want :=
  .add id.toInt (if c.portValid then some c.port.toNat else none) (if c.groupValid then some c.group.toNat else none)

/-- A line typed by the user: what it wants, or that it is bad; lines with numbers which do not fit, with negative numbers where they
have no meaning and with too many arguments for a setting are left open. -/
inductive Line | wants (w : Want) | bad | other

/-- The number is of this range. -/
def inR (lo hi : Int) (x : Int) : Bool := decide (lo ≤ x) && decide (x < hi)

/-- The reading of a line whose arguments are numbers. -/
def nums : Cmd → List Int → Line
  | .depth, [n] => if inR 0 (2 ^ 31) n then .wants (.depth .all n.toNat) else .other
  | .depth, [n, p] => if inR 0 (2 ^ 31) n && inR 0 (2 ^ 31) p then .wants (.depth (.port p.toNat) n.toNat) else .other
  | .depth, [n, p, i] =>
    if inR 0 (2 ^ 31) n && inR 0 (2 ^ 31) p && inR 0 (2 ^ 31) i then .wants (.depth (.line p.toNat i.toNat) n.toNat) else .other
  | .rate, [n] => if inR 0 (2 ^ 63) n then .wants (.rate .all n.toNat) else .other
  | .rate, [n, p] => if inR 0 (2 ^ 63) n && inR 0 (2 ^ 31) p then .wants (.rate (.port p.toNat) n.toNat) else .other
  | .rate, [n, p, i] =>
    if inR 0 (2 ^ 63) n && inR 0 (2 ^ 31) p && inR 0 (2 ^ 31) i then .wants (.rate (.line p.toNat i.toNat) n.toNat) else .other
  | .add, [i, p] =>
    if inR (-(2 ^ 31)) (2 ^ 31) i && inR 0 (2 ^ 31) p then .wants (.add i (some p.toNat) none) else .other
  | .addMc, [i, g] =>
    if inR (-(2 ^ 31)) (2 ^ 31) i && inR 0 (2 ^ 31) g then .wants (.add i none (some g.toNat)) else .other
  | .del, [i] => if inR (-(2 ^ 31)) (2 ^ 31) i then .wants (.del i) else .other
  | .get, [i] => if inR (-(2 ^ 31)) (2 ^ 31) i then .wants (.get i) else .other
  | _, _ => .other

/-- The number of arguments. -/
def _root_.Bm.SsMgmt.Cmd.Takes : Cmd → Nat → Prop
  | .depth, n => 1 ≤ n ∧ n ≤ 3
  | .rate, n => 1 ≤ n ∧ n ≤ 3
  | .add, n => n = 2
  | .addMc, n => n = 2
  | .del, n => n = 1
  | .get, n => n = 1

instance (c : Cmd) (n : Nat) : Decidable (c.Takes n) := by
  cases c <;> simp only [Cmd.Takes] <;> infer_instance

/-- The reading of a line. -/
def line (c : Cmd) (args : List (Option Int)) : Line :=
  if c.Takes args.length then
    match args.mapM id with
    | some l => nums c l
    | none => .bad
  else if (c = .depth ∨ c = .rate) ∧ args ≠ [] then .other
  else .bad

/-- What the tool tells.  Left open: sessions which could not be added, settings which were refused (`C112_refuted_add`,
`C112_refuted_pri`). -/
def Tells (w : Want) : Told → End → Option (Option (BitVec 32) × Option (BitVec 32)) → Prop
  | .ok, e, s => e = .fine ∧ s = none
  | .value p g, e, s => e = .fine ∧ s = some (p.map (BitVec.ofNat 32), g.map (BitVec.ofNat 32))
  | .refused, e, s => (∃ id, w = .del id ∨ w = .get id) → e = .told ∧ s = none
  | .port _, _, _ => False

/-- The events the claim is about: packets come and go; requests have a meaning. -/
def Possible : Ev T → Prop
  | .queue (.push _ _ _ _ _) => True
  | .queue (.pop _ _) => True
  | .queue (.size _) => True
  | .queue (.sizePri _ _) => True
  | .queue _ => False
  | .thrift r => r.want ≠ none
  | .cli c args => line c args ≠ .other
  | _ => True

/-- What an event does.  What PD returns is left open (`C112_refuted_pd`), but for devices which do not exist. -/
def Does (F : Queueing.Fixed) (st : St T) (t : Int) (st' : St T) : Ev T → Ans T → Prop
  | .queue op, .queue r => Queueing.Ok F st.lines op r ∧ st' = { st with lines := Queueing.effect F st.lines op r }
  | .thrift r, .reply a => ∃ w, r.want = some w ∧ st' = (want F.nbPri F.ticks t st w).1 ∧
      Answers r (want F.nbPri F.ticks t st w).2 a
  | .pd dev c, .reply a =>
    (0 ≤ dev ∧ dev < 256 → st' = (want F.nbPri F.ticks t st c.want).1) ∧
    (¬(0 ≤ dev ∧ dev < 256) → st' = st ∧ a = .int 1)
  | .piSet id c, .status s =>
    (c.both = true ∧ c.maxLen = 0 → st' = (want F.nbPri F.ticks t st (c.want id)).1 ∧
      s = if (want F.nbPri F.ticks t st (c.want id)).2 = .ok then .success else .targetError) ∧
    (¬(c.both = true ∧ c.maxLen = 0) → st' = st ∧ s = .notImplemented)
  | .piReset id, .status s => st' = (want F.nbPri F.ticks t st (.del id.toInt)).1 ∧
      s = if (want F.nbPri F.ticks t st (.del id.toInt)).2 = .ok then .success else .targetError
  | .cli c args, .cli e s =>
    (∃ w, line c args = .wants w ∧ st' = (want F.nbPri F.ticks t st w).1 ∧ Tells w (want F.nbPri F.ticks t st w).2 e s) ∨
    (line c args = .bad ∧ st' = st ∧ e = .told ∧ s = none)
  | _, _ => False

/-- All events do what they should. -/
def Follows (F : Queueing.Fixed) (st st' : St T) : List (Int × Ev T) → List (Ans T) → Prop
  | [], [] => st' = st
  | (t, e) :: es, a :: as => ∃ st1, Does F st t st1 e a ∧ Follows F st1 st' es as
  | _, _ => False

end Bm.SsMgmt.Spec
