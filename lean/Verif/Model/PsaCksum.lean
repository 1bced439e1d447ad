import Verif.Model.Field
import Verif.Model.SSPrims

/-!
# Model of the extern `InternetChecksum` of psa_switch

`/repo/targets/psa_switch/externs/psa_internet_checksum.{h,cpp}`.  The object is its only member, a
`uint16_t`.  `none` is a failed assertion or an exception.  A loop is given a number of rounds it may
take; it ends if there is a number that is enough, see `Runs`.
-/

namespace Bm.PsaCksum

open SSwitch (getU16)

/-- An element of the `std::vector<Field>` of a call (copies of the fields named in the program), and
whether reading it gives 0 because its header is not valid (see `Field.getValue`).
`/repo/include/bm/bm_sim/actions.h:548-563`. -/
structure Arg where
  field : Field
  inv : Bool

/-- `get_value()` of an argument.  `/repo/src/bm_sim/fields.cpp:152-166`. -/
def Arg.value (a : Arg) : Int := a.field.getValue a.inv

/-- One round of the loop of `concatenate_fields`: `n_bits` is a `uint16_t`.
`/repo/targets/psa_switch/externs/psa_internet_checksum.cpp:24-26`. -/
def concatStep (a : Arg) (st : Nat × Int) : Option (Nat × Int) :=
  if a.field.arith then
    some ((st.1 + a.field.nbits) % 2 ^ 16, Data.add st.2 (a.value * 2 ^ st.1))
  else none

/-- The loop of `concatenate_fields`, from the last field to the first.
`/repo/targets/psa_switch/externs/psa_internet_checksum.cpp:19-27`. -/
def concatLoop : List Arg → Option (Nat × Int)
  | [] => some (0, 0)
  | a :: as => do concatStep a (← concatLoop as)

/-- `concatenate_fields`.  `/repo/targets/psa_switch/externs/psa_internet_checksum.cpp:17-30`. -/
def concatenate (as : List Arg) : Option Int := do
  let st ← concatLoop as
  if st.1 % 16 = 0 then return st.2 else none

/-- `ones_complement_sum`; the result is narrowed to 16 bits.
`/repo/targets/psa_switch/externs/psa_internet_checksum.cpp:32-39`. -/
def onesSum (x y : BitVec 16) : BitVec 16 :=
  let ret := x.toNat + y.toNat
  BitVec.ofNat 16 (if ret ≥ 0x10000 then ret + 1 else ret)

/-- `d` of the loops.  `/repo/targets/psa_switch/externs/psa_internet_checksum.cpp:86-87`. -/
def chunk (input : Int) : Option (BitVec 16) := getU16 (Data.bitAnd input 0xffff)

/-- What the loop of `add` and the one of `subtract` add to the sum.
`/repo/targets/psa_switch/externs/psa_internet_checksum.cpp:88,104`. -/
def operand (sub : Bool) (d : BitVec 16) : BitVec 16 := if sub then ~~~d else d

/-- The loops of `add` (`sub = false`) and `subtract` (`sub = true`), for at most `n` rounds.
`/repo/targets/psa_switch/externs/psa_internet_checksum.cpp:85-90,101-106`. -/
def loop (sub : Bool) : Nat → Int → BitVec 16 → Option (BitVec 16)
  | 0, input, s => if input = 0 then some s else none
  | n + 1, input, s =>
    if input = 0 then some s
    else do loop sub n (input / 2 ^ 16) (onesSum s (operand sub (← chunk input)))

/-- A call of a method that changes the object. -/
inductive Op where
  /-- `clear()`, also called by `init()`.  lines 47-50,72-75 -/
  | clear
  /-- `add(fields)`.  lines 77-91 -/
  | add (as : List Arg)
  /-- `subtract(fields)`.  lines 93-107 -/
  | subtract (as : List Arg)
  /-- `set_state(src)`.  lines 67-70 -/
  | setState (src : Int)

/-- The method, with loops of at most `n` rounds.
`/repo/targets/psa_switch/externs/psa_internet_checksum.cpp:67-107`. -/
def Op.exec (n : Nat) (s : BitVec 16) : Op → Option (BitVec 16)
  | .clear => some 0
  | .add as => do loop false n (← concatenate as) s
  | .subtract as => do loop true n (← concatenate as) s
  | .setState src => getU16 src

/-- The call ends, the sum being `s'`. -/
def Runs (s : BitVec 16) (op : Op) (s' : BitVec 16) : Prop := ∃ n, op.exec n s = some s'

/-- A sequence of calls. -/
inductive RunsAll : BitVec 16 → List Op → BitVec 16 → Prop where
  | nil (s) : RunsAll s [] s
  | cons {s op s1 ops s2} : Runs s op s1 → RunsAll s1 ops s2 → RunsAll s (op :: ops) s2

/-- `get`.  `/repo/targets/psa_switch/externs/psa_internet_checksum.cpp:52-55`. -/
def get (s : BitVec 16) (dst : Arg) : Option Field := dst.field.set dst.inv (~~~s).toNat

/-- `get_state`.  `/repo/targets/psa_switch/externs/psa_internet_checksum.cpp:57-60`. -/
def getState (s : BitVec 16) (dst : Arg) : Option Field := dst.field.set dst.inv s.toNat

/-- `get_verify`.  `/repo/targets/psa_switch/externs/psa_internet_checksum.cpp:62-65`. -/
def getVerify (s : BitVec 16) (dst equOp : Arg) : Option Field := do
  if equOp.field.arith then
    let v ← getU16 equOp.value
    dst.field.set dst.inv (if v = ~~~s then 1 else 0)
  else none

end Bm.PsaCksum
