import Verif.Model.PsaExt
import Verif.Spec.Meter
import Verif.Spec.ThriftExt

/-!
# Counters, meters and random numbers of PSA, as programs and controllers see them (C113)

A counter is an integer which grows forever.  A meter has no rates, or the rates it was given last and the packets seen since then;
which level a packet gets is that of `Spec/Meter`.
-/

namespace Bm.PsaExt.Spec

open Bm.Spec.Meter (Level Seen Gets)
open Bm.ThriftExt (Reply)
open Bm.ThriftExt.Spec (Inside pos Bursts ascending put)

variable {R : Type}

/-- A meter which was given rates: the rates and the packets since. -/
structure MtrS (R : Type) where
  rates : List (R × Int32)
  seen : List Seen := []

/-- An instance. -/
inductive Obj (R : Type)
  | counter (size : Nat) (bytes packets : Nat → Int)
  | meter (size nrates : Nat) (byPacket : Bool) (m : Nat → Option (MtrS R))
  | random (lo hi : Nat)
  | other

/-- What kind of instance it is. -/
inductive Kind | counter | meter | random | other
  deriving DecidableEq

def Obj.kind : Obj R → Kind
  | .counter _ _ _ => .counter
  | .meter _ _ _ _ => .meter
  | .random _ _ => .random
  | .other => .other

def _root_.Bm.PsaExt.Decl.kind : Decl → Kind
  | .counter _ => .counter
  | .meter _ _ _ => .meter
  | .random _ _ => .random
  | .other => .other

/-- All instances, by name. -/
abbrev St (R : Type) := Nat → Option (Obj R)

/-- An instance at the start. -/
def _root_.Bm.PsaExt.Decl.start : Decl → Obj R
  | .counter n => .counter n (fun _ => 0) (fun _ => 0)
  | .meter n type k => .meter n k (decide (type ≠ "bytes")) (fun _ => none)
  | .random lo hi => .random lo hi
  | .other => .other

/-- All instances at the start. -/
def start (ds : List Decl) : St R := fun n => (ds[n]?).map Decl.start

/-- Declarations the claim is about: at most two rates (green, yellow and red), a range of at least two numbers. -/
def _root_.Bm.PsaExt.Decl.Fine : Decl → Prop
  | .counter n => n < 2 ^ 63
  | .meter n _ k => n < 2 ^ 63 ∧ k ≤ 2
  | .random lo hi => lo < hi
  | .other => True

/-- Changing one instance. -/
def upd (st : St R) (n : Nat) (o : Obj R) : St R := fun m => if m = n then some o else st m

/-- `PSA_MeterColor_t`: red, green, yellow. -/
inductive Color | red | green | yellow

/-- The numbers of colours in PSA: the order of the enumeration. -/
def Color.number : Color → Nat
  | .red => 0
  | .green => 1
  | .yellow => 2

/-- The colour for the most severe level violated. -/
def Color.ofLevel : Nat → Color
  | 0 => .green
  | 1 => .yellow
  | _ => .red

/-- The level of a rate and a burst size. -/
def level (acc : R → Nat → Nat) (p : R × Int32) : Level := ⟨p.2.toInt.toNat, acc p.1⟩

/-- What a request does and answers.  What is said about rates of a wrong number is left open (`C113_refuted_told`). -/
def Says (st st' : St R) : Req R → Reply R → Prop
  | .cntRead n i, a => st' = st ∧ ((st n = none ∧ a = .exc .cntName) ∨ ∃ size b p, st n = some (.counter size b p) ∧
      (Inside i size → a = .cnt (Int64.ofInt (b (pos i))) (Int64.ofInt (p (pos i)))) ∧ (¬Inside i size → a = .exc .cntIndex))
  | .cntWrite n i x y, a => (st n = none ∧ a = .exc .cntName ∧ st' = st) ∨ ∃ size b p, st n = some (.counter size b p) ∧
      (Inside i size → a = .done ∧ st' = upd st n (.counter size (put b (pos i) x.toInt) (put p (pos i) y.toInt))) ∧
      (¬Inside i size → a = .exc .cntIndex ∧ st' = st)
  | .cntReset n, a => (st n = none ∧ a = .exc .cntName ∧ st' = st) ∨ ∃ size b p, st n = some (.counter size b p) ∧
      a = .done ∧ st' = upd st n (.counter size (fun _ => 0) (fun _ => 0))
  | .mtrSet n i rs, a => (st n = none ∧ a = .exc .mtrName ∧ st' = st) ∨ ∃ size k q m, st n = some (.meter size k q m) ∧
      (Inside i size → rs.length = k → a = .done ∧ st' = upd st n (.meter size k q (put m (pos i) (some ⟨rs, []⟩)))) ∧
      (Inside i size → rs.length ≠ k → st' = st) ∧
      (¬Inside i size → a = .exc .mtrIndex ∧ st' = st)
  | .mtrSetAll n rs, a => (st n = none ∧ a = .exc .mtrName ∧ st' = st) ∨ ∃ size k q m, st n = some (.meter size k q m) ∧
      (rs.length = k → a = .done ∧ st' = upd st n (.meter size k q (fun _ => some ⟨rs, []⟩))) ∧
      (rs.length ≠ k → st' = st)
  | .mtrGet n i, a => st' = st ∧ ((st n = none ∧ a = .exc .mtrName) ∨ ∃ size k q m, st n = some (.meter size k q m) ∧
      (Inside i size → a = .rates (((m (pos i)).map MtrS.rates).getD [])) ∧ (¬Inside i size → a = .exc .mtrIndex))

/-- What a packet finds at a meter: the colour, and the meter afterwards. -/
def Meters (acc : R → Nat → Nat) (t sz : Nat) (v : Nat) : Option (MtrS R) → Option (MtrS R) → Prop
  | none, m' => v = Color.green.number ∧ m' = none
  | some x, m' => ∃ l, Gets (x.rates.map (level acc)) x.seen t sz l ∧ v = (Color.ofLevel l).number ∧
      m' = some { x with seen := ⟨t, sz, l⟩ :: x.seen }

/-- What an event does, `t` microseconds after the start. -/
def Does (acc : R → Nat → Nat) (t : Nat) (st st' : St R) : Ev R → Ans R → Prop
  | .count n i len, .none => ∃ size b p, st n = some (.counter size b p) ∧
      (i < size → st' = upd st n (.counter size (put b i (b i + len)) (put p i (p i + 1)))) ∧ (size ≤ i → st' = st)
  | .execute n i len old, .value v => ∃ size k q m, st n = some (.meter size k q m) ∧
      (i < size → ∃ m', Meters acc t (if q then 1 else len) v (m i) m' ∧ st' = upd st n (.meter size k q (put m i m'))) ∧
      (size ≤ i → v = old ∧ st' = st)
  | .random n _, .value v => ∃ lo hi, st n = some (.random lo hi) ∧ lo ≤ v ∧ v ≤ hi ∧ st' = st
  | .req r, .reply a => Says st st' r a
  | _, _ => False

/-- All events do what they should; `t0` is the time of the start in nanoseconds. -/
def Follows (acc : R → Nat → Nat) (t0 : Nat) (st st' : St R) : List (Nat × Ev R) → List (Ans R) → Prop
  | [], [] => st' = st
  | (now, e) :: es, a :: as => ∃ st1, Does acc ((now - t0) / 1000) st st1 e a ∧ Follows acc t0 st1 st' es as
  | _, _ => False

/-- Rates the claim is about: no negative burst sizes, none smaller than the one before, no overflow until `T`. -/
def Good (gt : R → R → Bool) (acc : R → Nat → Nat) (T : Nat) (rs : List (R × Int32)) : Prop :=
  Bursts rs ∧ ascending gt rs = true ∧ ∀ p ∈ rs, p.2.toInt.toNat + acc p.1 T < 2 ^ 64

/-- The name is one of this kind. -/
def Is (ds : List Decl) (n : Nat) (k : Kind) : Prop := (ds[n]?).map Decl.kind = some k

/-- The name is one of this kind or of nothing. -/
def IsOr (ds : List Decl) (n : Nat) (k : Kind) : Prop := ds[n]? = none ∨ Is ds n k

/-- The events the claim is about: the program is well typed, requests are not about instances of another kind
(`C113_refuted_type`), rates are good, the state is not reset (`C113_refuted_reset`). -/
def Possible (ds : List Decl) (gt : R → R → Bool) (acc : R → Nat → Nat) (T : Nat) : Ev R → Prop
  | .count n _ _ => Is ds n .counter
  | .execute n _ _ _ => Is ds n .meter
  | .random n _ => Is ds n .random
  | .req (.cntRead n _) => IsOr ds n .counter
  | .req (.cntWrite n _ _ _) => IsOr ds n .counter
  | .req (.cntReset n) => IsOr ds n .counter
  | .req (.mtrSet n _ rs) => IsOr ds n .meter ∧ Good gt acc T rs
  | .req (.mtrSetAll n rs) => IsOr ds n .meter ∧ Good gt acc T rs
  | .req (.mtrGet n _) => IsOr ds n .meter
  | .resetState => False

end Bm.PsaExt.Spec
