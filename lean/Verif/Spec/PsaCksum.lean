import Verif.Model.PsaCksum
import Verif.Spec.Bits
import Verif.Spec.Cksum

/-!
# What the extern `InternetChecksum` is to compute

The PSA specification: the object holds a one's complement sum; `add` adds the 16-bit words of the data,
`subtract` the complements of these, `get` is the complement of the sum.
-/

namespace Bm.PsaCksum.Spec

open Bm.Spec

/-- What an argument holds: 0 if its header is not valid. -/
def contents (a : Arg) : Int := if a.inv then 0 else a.field.value

/-- The argument holds a number of its width, not negative (every unsigned field does). -/
def Plain (a : Arg) : Prop := a.field.arith = true ∧ 0 ≤ contents a ∧ contents a < 2 ^ a.field.nbits

/-- The bits of the arguments, one after another. -/
def bits (as : List Arg) : List Bool := as.flatMap fun a => natBits a.field.nbits (contents a).toNat

/-- The data of a call: the arguments are the bytes `bs`, which make whole 16-bit words. -/
def Data (as : List Arg) (bs : Bytes) : Prop :=
  (∀ a ∈ as, Plain a) ∧ bits as = bytesBits bs ∧ bs.length % 2 = 0

/-- The one's complement sum of `s` and the words. -/
def plus (s : Nat) (bs : Bytes) : Nat := (Cksum.Spec.words bs).foldl Cksum.Spec.add s

/-- The same with the complements of the words. -/
def minus (s : Nat) (bs : Bytes) : Nat :=
  (Cksum.Spec.words bs).foldl (fun s w => Cksum.Spec.add s (65535 - w)) s

/-- Some bit of the data is set. -/
def NonZero (bs : Bytes) : Prop := ∃ b ∈ bs, b ≠ 0

/-- A call that adds to or subtracts from the sum, on the given data. -/
inductive Change where
  | plus (bs : Bytes)
  | minus (bs : Bytes)

/-- The call `op` is that change. -/
def Is : Op → Change → Prop
  | .add as, .plus bs => Data as bs
  | .subtract as, .minus bs => Data as bs
  | _, _ => False

/-- The change of the sum, as an integer. -/
def Change.amount : Change → Int
  | .plus bs => ((Cksum.Spec.words bs).sum : Nat)
  | .minus bs => -((Cksum.Spec.words bs).sum : Nat)

end Bm.PsaCksum.Spec
