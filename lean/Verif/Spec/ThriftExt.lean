import Verif.Model.LookupStructures

/-!
# What a client of the Thrift interface is told about registers, counters, meters and value sets

Specification for `Verif/Props/ThriftExt.lean`.  It uses nothing of the model.  Names are numbers; a switch is a list of
contexts.  Integers on the wire are `Int32` and `Int64`.  A counter is an integer that grows forever; a register holds the
last value written, modulo its width; a meter holds the last rates set; a value set is a set.
-/

namespace Bm.ThriftExt

/-- The requests (`R`: rates).  -/
inductive Req (R : Type)
  | regRead (n : Nat) (i : Int32)
  | regReadAll (n : Nat)
  | regWrite (n : Nat) (i : Int32) (v : Int64)
  | regWriteRange (n : Nat) (i j : Int32) (v : Int64)
  | regReset (n : Nat)
  | cntRead (n : Nat) (i : Int32)
  | cntWrite (n : Nat) (i : Int32) (b p : Int64)
  | cntReset (n : Nat)
  | mtrSet (n : Nat) (i : Int32) (rs : List (R × Int32))
  | mtrSetAll (n : Nat) (rs : List (R × Int32))
  | mtrGet (n : Nat) (i : Int32)
  | vsetAdd (n : Nat) (v : Bytes)
  | vsetRemove (n : Nat) (v : Bytes)
  | vsetGet (n : Nat)
  | vsetClear (n : Nat)

/-- The exceptions of the interface that are declared for these requests. -/
inductive Exc
  | regName | regIndex
  | cntName | cntIndex
  | mtrName | mtrIndex | badRates | infoRate | burst
  | vsetName | vsetError
  deriving Repr, DecidableEq

/-- Replies; `undeclared` is an exception of another type. -/
inductive Reply (R : Type)
  | done
  | exc (e : Exc)
  | val (x : Int64)
  | vals (xs : List Int64)
  | cnt (b p : Int64)
  | rates (rs : List (R × Int32))
  | bytes (l : List Bytes)
  | undeclared
  deriving DecidableEq

/-- What packets do: count, write a register, run through a meter. -/
inductive Dp
  | count (n i len : Nat)
  | regWrite (n i : Nat) (v : Int)
  | meter (n i now len pre : Nat)

/-- What happens to the switch. -/
inductive Ev (R : Type)
  | req (cxt : Int32) (r : Req R)
  | resetState
  | pkt (cxt : Nat) (a : Dp)

/-- What the P4 program declares. -/
structure Decl where
  /-- size and width -/
  regs : Nat → Option (Nat × Nat)
  /-- size -/
  cnts : Nat → Option Nat
  /-- counts packets, number of rates, size -/
  mtrs : Nat → Option (Bool × Nat × Nat)
  /-- width, and the select cases that use it (widths of the key, mask) -/
  vsets : Nat → Option (Nat × List (List Nat × Option Bytes))

namespace Spec

structure RegS where
  width : Nat
  size : Nat
  val : Nat → Nat

structure CntS where
  size : Nat
  bytes : Nat → Int
  packets : Nat → Int

structure MtrS (R : Type) where
  size : Nat
  nrates : Nat
  cfg : Nat → List (R × Int32)

structure VSetS where
  width : Nat
  mem : Bytes → Prop

/-- A context. -/
structure St (R : Type) where
  regs : Nat → Option RegS
  cnts : Nat → Option CntS
  mtrs : Nat → Option (MtrS R)
  vsets : Nat → Option VSetS

variable {R : Type}

/-- The start: all zero, no rates, no values. -/
def start (d : Decl) : St R where
  regs n := (d.regs n).map fun x => ⟨x.2, x.1, fun _ => 0⟩
  cnts n := (d.cnts n).map fun x => ⟨x, fun _ => 0, fun _ => 0⟩
  mtrs n := (d.mtrs n).map fun x => ⟨x.2.2, x.2.1, fun _ => []⟩
  vsets n := (d.vsets n).map fun x => ⟨x.1, fun _ => False⟩

/-- Changing what a name stands for. -/
def upd {α : Type} (f : Nat → Option α) (n : Nat) (x : α) : Nat → Option α := fun m => if m = n then some x else f m

/-- Changing one element. -/
def put {α : Type} (f : Nat → α) (k : Nat) (x : α) : Nat → α := fun m => if m = k then x else f m

/-- An index of an array of this size. -/
abbrev Inside (i : Int32) (size : Nat) : Prop := 0 ≤ i.toInt ∧ i.toInt < size

/-- The element that a valid index means. -/
def pos (i : Int32) : Nat := i.toInt.toNat

/-- A valid range. -/
abbrev Range (i j : Int32) (size : Nat) : Prop := 0 ≤ i.toInt ∧ i.toInt ≤ j.toInt ∧ j.toInt ≤ size

/-- What a register of this width keeps of an integer. -/
def keep (width : Nat) (v : Int) : Nat := (v % 2 ^ width).toNat

/-- No negative burst size. -/
abbrev Bursts (rs : List (R × Int32)) : Prop := ∀ p ∈ rs, 0 ≤ p.2.toInt

/-- No rate is larger than the next one. -/
def ascending (gt : R → R → Bool) : List (R × Int32) → Bool
  | a :: b :: rs => !gt a.1 b.1 && ascending gt (b :: rs)
  | _ => true

/-- Rates that a meter accepts. -/
abbrev Accepts (gt : R → R → Bool) (a : MtrS R) (rs : List (R × Int32)) : Prop :=
  rs.length = a.nrates ∧ Bursts rs ∧ ascending gt rs = true

/-- Why rates are refused. -/
def whyNot (a : MtrS R) (rs : List (R × Int32)) : Exc :=
  if rs.length ≠ a.nrates then .badRates else if Bursts rs then .infoRate else .burst

/-- The size of a value in bytes. -/
def VSetS.bytes (a : VSetS) : Nat := (a.width + 7) / 8

/-- Writing a range. -/
def RegS.fill (a : RegS) (lo hi v : Nat) : RegS :=
  { a with val := fun k => if lo ≤ k ∧ k < hi then v else a.val k }

/-- Changing a counter. -/
def CntS.set (a : CntS) (k : Nat) (b p : Int) : CntS :=
  { a with bytes := put a.bytes k b, packets := put a.packets k p }

/-- The context after a request: requests that are refused change nothing. -/
def next (gt : R → R → Bool) (S : St R) : Req R → St R
  | .regRead _ _ | .regReadAll _ | .cntRead _ _ | .mtrGet _ _ | .vsetGet _ => S
  | .regWrite n i v =>
    match S.regs n with
    | none => S
    | some a =>
      if Inside i a.size then { S with regs := upd S.regs n { a with val := put a.val (pos i) (keep a.width v.toInt) } }
      else S
  | .regWriteRange n i j v =>
    match S.regs n with
    | none => S
    | some a =>
      if Range i j a.size then
        { S with regs := upd S.regs n (a.fill (pos i) (pos j) (keep a.width v.toInt)) }
      else S
  | .regReset n =>
    match S.regs n with
    | none => S
    | some a => { S with regs := upd S.regs n { a with val := fun _ => 0 } }
  | .cntWrite n i b p =>
    match S.cnts n with
    | none => S
    | some a =>
      if Inside i a.size then
        { S with cnts := upd S.cnts n (a.set (pos i) b.toInt p.toInt) }
      else S
  | .cntReset n =>
    match S.cnts n with
    | none => S
    | some a => { S with cnts := upd S.cnts n { a with bytes := fun _ => 0, packets := fun _ => 0 } }
  | .mtrSet n i rs =>
    match S.mtrs n with
    | none => S
    | some a =>
      if Inside i a.size ∧ Accepts gt a rs then
        { S with mtrs := upd S.mtrs n { a with cfg := put a.cfg (pos i) rs } }
      else S
  | .mtrSetAll n rs =>
    match S.mtrs n with
    | none => S
    | some a => if Accepts gt a rs then { S with mtrs := upd S.mtrs n { a with cfg := fun _ => rs } } else S
  | .vsetAdd n v =>
    match S.vsets n with
    | none => S
    | some a =>
      if v.length = a.bytes then { S with vsets := upd S.vsets n { a with mem := fun u => u = v ∨ a.mem u } } else S
  | .vsetRemove n v =>
    match S.vsets n with
    | none => S
    | some a =>
      if v.length = a.bytes then { S with vsets := upd S.vsets n { a with mem := fun u => u ≠ v ∧ a.mem u } } else S
  | .vsetClear n =>
    match S.vsets n with
    | none => S
    | some a => { S with vsets := upd S.vsets n { a with mem := fun _ => False } }

/-- Congruent modulo 2^64: all that an `Int64` can tell of a counter. -/
def Cong (x : Int64) (v : Int) : Prop := (2 : Int) ^ 64 ∣ v - x.toInt

/-- What the client is told. -/
def Says (gt : R → R → Bool) (S : St R) (r : Req R) (rep : Reply R) : Prop :=
  match r with
  | .regRead n i =>
    match S.regs n with
    | none => rep = .exc .regName
    | some a => if Inside i a.size then ∃ x, rep = .val x ∧ x.toInt = a.val (pos i) else rep = .exc .regIndex
  | .regReadAll n =>
    match S.regs n with
    | none => rep = .exc .regName
    | some a => ∃ xs, rep = .vals xs ∧ xs.map Int64.toInt = (List.range a.size).map fun k => (a.val k : Int)
  | .regWrite n i _ =>
    match S.regs n with
    | none => rep = .exc .regName
    | some a => rep = if Inside i a.size then .done else .exc .regIndex
  | .regWriteRange n i j _ =>
    match S.regs n with
    | none => rep = .exc .regName
    | some a => rep = if Range i j a.size then .done else .exc .regIndex
  | .regReset n => rep = if (S.regs n).isSome then .done else .exc .regName
  | .cntRead n i =>
    match S.cnts n with
    | none => rep = .exc .cntName
    | some a =>
      if Inside i a.size then ∃ b p, rep = .cnt b p ∧ Cong b (a.bytes (pos i)) ∧ Cong p (a.packets (pos i))
      else rep = .exc .cntIndex
  | .cntWrite n i _ _ =>
    match S.cnts n with
    | none => rep = .exc .cntName
    | some a => rep = if Inside i a.size then .done else .exc .cntIndex
  | .cntReset n => rep = if (S.cnts n).isSome then .done else .exc .cntName
  | .mtrSet n i rs =>
    match S.mtrs n with
    | none => rep = .exc .mtrName
    | some a =>
      if Inside i a.size then rep = if Accepts gt a rs then .done else .exc (whyNot a rs)
      else rep = .exc .mtrIndex
  | .mtrSetAll n rs =>
    match S.mtrs n with
    | none => rep = .exc .mtrName
    | some a => rep = if Accepts gt a rs then .done else .exc (whyNot a rs)
  | .mtrGet n i =>
    match S.mtrs n with
    | none => rep = .exc .mtrName
    | some a => rep = if Inside i a.size then .rates (a.cfg (pos i)) else .exc .mtrIndex
  | .vsetAdd n v | .vsetRemove n v =>
    match S.vsets n with
    | none => rep = .exc .vsetName
    | some a => rep = if v.length = a.bytes then .done else .exc .vsetError
  | .vsetGet n =>
    match S.vsets n with
    | none => rep = .exc .vsetName
    | some a => ∃ l, rep = .bytes l ∧ l.Nodup ∧ ∀ v, v ∈ l ↔ a.mem v
  | .vsetClear n => rep = if (S.vsets n).isSome then .done else .exc .vsetName

/-- What packets do to a context. -/
def nextDp (S : St R) : Dp → St R
  | .count n i len =>
    match S.cnts n with
    | none => S
    | some a =>
      { S with cnts := upd S.cnts n (a.set i (a.bytes i + len) (a.packets i + 1)) }
  | .regWrite n i v =>
    match S.regs n with
    | none => S
    | some a => { S with regs := upd S.regs n { a with val := put a.val i (keep a.width v) } }
  | .meter _ _ _ _ _ => S

/-- A context after a reset: as at the start. -/
def reset (S : St R) : St R where
  regs n := (S.regs n).map fun a => { a with val := fun _ => 0 }
  cnts n := (S.cnts n).map fun a => { a with bytes := fun _ => 0, packets := fun _ => 0 }
  mtrs n := (S.mtrs n).map fun a => { a with cfg := fun _ => [] }
  vsets n := (S.vsets n).map fun a => { a with mem := fun _ => False }

/-- The context that a request names. -/
def cxtOf (S : List (St R)) (cxt : Int32) : Option Nat := if Inside cxt S.length then some (pos cxt) else none

/-- The switch after an event. -/
def nextEv (gt : R → R → Bool) (S : List (St R)) : Ev R → List (St R)
  | .req cxt r =>
    match cxtOf S cxt with
    | none => S
    | some k => S.modify k fun T => next gt T r
  | .resetState => S.map reset
  | .pkt k a => S.modify k fun T => nextDp T a

/-- What is said after an event. -/
def SaysEv (gt : R → R → Bool) (S : List (St R)) (e : Ev R) (rep : Option (Reply R)) : Prop :=
  match e with
  | .req cxt r =>
    match cxtOf S cxt with
    | none => rep = some .undeclared
    | some k => ∃ T x, S[k]? = some T ∧ rep = some x ∧ Says gt T r x
  | .resetState => rep = some .done
  | .pkt _ _ => rep = none

/-- All that is said during a history. -/
def Tells (gt : R → R → Bool) : List (St R) → List (Ev R) → List (Option (Reply R)) → Prop
  | _, [], reps => reps = []
  | S, e :: es, reps => ∃ rep reps', reps = rep :: reps' ∧ SaysEv gt S e rep ∧ Tells gt (nextEv gt S e) es reps'

/-! ## The requests for which the property is proved -/

/-- Registers that are read hold less than 2^63; not all registers of an empty array are read; the rates for a meter, if
there are as many as needed, are acceptable, and an array of meters is not empty; values for a value set have the right
size. -/
def Fits (gt : R → R → Bool) (S : St R) : Req R → Prop
  | .regRead n i =>
    match S.regs n with
    | none => True
    | some a => Inside i a.size → a.val (pos i) < 2 ^ 63
  | .regReadAll n =>
    match S.regs n with
    | none => True
    | some a => 0 < a.size ∧ ∀ k < a.size, a.val k < 2 ^ 63
  | .mtrSet n i rs =>
    match S.mtrs n with
    | none => True
    | some a => Inside i a.size → rs.length = a.nrates → Accepts gt a rs
  | .mtrSetAll n rs =>
    match S.mtrs n with
    | none => True
    | some a => 0 < a.size ∧ (rs.length = a.nrates → Accepts gt a rs)
  | .vsetAdd n v | .vsetRemove n v =>
    match S.vsets n with
    | none => True
    | some a => v.length = a.bytes
  | _ => True

/-- `Fits` for the requests to existing contexts, and no reset while there is a value in a value set. -/
def FitsEv (gt : R → R → Bool) (S : List (St R)) : Ev R → Prop
  | .req cxt r =>
    match (cxtOf S cxt).bind fun k => S[k]? with
    | none => True
    | some T => Fits gt T r
  | .resetState => ∀ T ∈ S, ∀ n a, T.vsets n = some a → ∀ v, ¬ a.mem v
  | .pkt _ _ => True

/-- All events of a history. -/
def AllFit (gt : R → R → Bool) : List (St R) → List (Ev R) → Prop
  | _, [] => True
  | S, e :: es => FitsEv gt S e ∧ AllFit gt (nextEv gt S e) es

end Spec
end Bm.ThriftExt
