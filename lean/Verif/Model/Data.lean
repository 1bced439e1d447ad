import Verif.Model.LookupStructures
import Mathlib.Data.Int.Bitwise

/-!
# Model of `Bignum` and of the operations of `Data`

`/repo/include/bm/bm_sim/bignum.h:23-52` and `/repo/include/bm/bm_sim/data.h:42-467`.  A `Bignum` is
an unbounded integer (`boost::multiprecision::number<gmp_int>`): `&`, `|`, `^`, `~` act on the
infinite two's complement form, `<<` multiplies, `>>` divides rounding down, `%` and `/` truncate.
`none` is a failed `assert`, an exception or undefined behaviour.

`Data` operations have the form `value = e; export_bytes();` where `export_bytes` is virtual: nothing
for a plain `Data`, see `Verif.Model.Field` for fields.  Here are the expressions `e`.
-/

namespace Bm.Data

/-- `bignum::import_bytes`: big endian, no sign.  `/repo/include/bm/bm_sim/bignum.h:40-42`. -/
def importBytes (l : Bytes) : Int := Int.ofNat (l.foldl (fun a b => a * 256 + b.toNat) 0)

/-- `size` bytes of a natural number, big endian. -/
def beBytes : Nat → Nat → Bytes
  | 0, _ => []
  | size + 1, n => UInt8.ofNat (n / 256 ^ size) :: beBytes size n

/-- `bignum::export_bytes(dst, size, v)` with `dst` of `size` bytes: one word of `size` bytes holding
the magnitude of `v`; nothing is written when `v` is 0; more than one word does not fit (`none`).
`/repo/include/bm/bm_sim/bignum.h:30-34`. -/
def exportBytes (dst : Bytes) (size : Nat) (v : Int) : Option Bytes :=
  if v = 0 then some dst
  else if v.natAbs < 256 ^ size then some (beBytes size v.natAbs)
  else none

/-- `bignum::test_bit`.  `/repo/include/bm/bm_sim/bignum.h:44-46`. -/
def testBit (v : Int) (i : Nat) : Bool := v.testBit i

/-- `bignum::clear_bit` on a non-negative number.  `/repo/include/bm/bm_sim/bignum.h:48-50`. -/
def clearBit (v : Int) (i : Nat) : Int := if testBit v i then v - 2 ^ i else v

/-- `get_uint`; a negative value makes `convert_to` throw, a value that does not fit is not modelled
(`none`).  `/repo/include/bm/bm_sim/data.h:184-187`. -/
def getUint (v : Int) : Option Nat := if 0 ≤ v ∧ v < 2 ^ 32 then some v.toNat else none

/-- `add`.  `/repo/include/bm/bm_sim/data.h:224-228`. -/
def add (a b : Int) : Int := a + b

/-- `sub`.  `/repo/include/bm/bm_sim/data.h:231-235`. -/
def sub (a b : Int) : Int := a - b

/-- `mod`.  `/repo/include/bm/bm_sim/data.h:239-244`. -/
def mod (a b : Int) : Option Int := if 0 ≤ a ∧ 0 < b then some (a.tmod b) else none

/-- `divide`.  `/repo/include/bm/bm_sim/data.h:248-253`. -/
def divide (a b : Int) : Option Int := if 0 ≤ a ∧ 0 < b then some (a.tdiv b) else none

/-- `multiply`.  `/repo/include/bm/bm_sim/data.h:256-260`. -/
def multiply (a b : Int) : Int := a * b

/-- `shift_left`.  `/repo/include/bm/bm_sim/data.h:263-268`. -/
def shiftLeft (a b : Int) : Option Int := do
  if 0 ≤ b then return a * 2 ^ (← getUint b) else none

/-- `shift_right`.  `/repo/include/bm/bm_sim/data.h:271-276`. -/
def shiftRight (a b : Int) : Option Int := do
  if 0 ≤ b then return a / 2 ^ (← getUint b) else none

/-- `bit_and`.  `/repo/include/bm/bm_sim/data.h:293-297`. -/
def bitAnd (a b : Int) : Int := a.land b

/-- `bit_or`.  `/repo/include/bm/bm_sim/data.h:300-304`. -/
def bitOr (a b : Int) : Int := a.lor b

/-- `bit_xor`.  `/repo/include/bm/bm_sim/data.h:307-311`. -/
def bitXor (a b : Int) : Int := a.xor b

/-- `bit_neg`.  `/repo/include/bm/bm_sim/data.h:314-318`. -/
def bitNeg (a : Int) : Int := a.lnot

/-- `two_comp_mod`.  The `unsigned int` subtraction `uwidth - 1` wraps for width 0: a shift by
4294967295.  `/repo/include/bm/bm_sim/data.h:322-336`. -/
def twoCompMod (src width : Int) : Option Int := do
  let uwidth ← getUint width
  let w1 := if uwidth = 0 then 2 ^ 32 - 1 else uwidth - 1
  let mask : Int := 2 ^ uwidth - 1
  let max : Int := 2 ^ w1 - 1
  let min : Int := -2 ^ w1
  if src < min ∨ src > max then
    let value := src.land mask
    return if value > max then value - 2 ^ uwidth else value
  else return src

/-- `usat_cast`.  `/repo/include/bm/bm_sim/data.h:341-352`. -/
def usatCast (src width : Int) : Option Int := do
  let uwidth ← getUint width
  let max : Int := 2 ^ uwidth - 1
  return if src > max then max else if src < 0 then 0 else src

/-- `sat_cast`.  `/repo/include/bm/bm_sim/data.h:357-369`. -/
def satCast (src width : Int) : Option Int := do
  let uwidth ← getUint width
  let w1 := if uwidth = 0 then 2 ^ 32 - 1 else uwidth - 1
  let max : Int := 2 ^ w1 - 1
  let min : Int := -2 ^ w1
  return if src > max then max else if src < min then min else src

end Bm.Data
