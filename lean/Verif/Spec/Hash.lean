import Verif.Model.LookupStructures

/-!
# Hash functions, bit by bit
-/

namespace Bm.Hash.Spec

/-- Bit number `i` of a byte string, most significant bits first; zero beyond the end. -/
def bitAt (bs : Bytes) (i : Nat) : Bool := (bs.getD (i / 8) 0).toNat.testBit (7 - i % 8)

/-- The exclusive or of `f 0, ..., f (n-1)`. -/
def parity (f : Nat → Bool) : Nat → Bool
  | 0 => false
  | n + 1 => parity f n ^^ f n

/-- Bit number `t`, from the left, of the Toeplitz hash: for each set bit `i` of the input the bits of
the key from `i` on are xored in.  The key is repeated as often as necessary. -/
def toeplitz (key input : Bytes) (t : Nat) : Bool :=
  parity (fun i => bitAt input i && bitAt key ((i + t) % (8 * key.length))) (8 * input.length)

/-- Bit number `t`, from the left, of the exclusive or of the words of `n` bytes. -/
def xorWords (n : Nat) (input : Bytes) (t : Nat) : Bool :=
  parity (fun m => bitAt input (8 * n * m + t)) input.length

/-- The big-endian value of a byte string. -/
def value (bs : Bytes) : Nat := bs.foldl (fun v b => 256 * v + b.toNat) 0

/-- The different inputs, in the order they were first seen. -/
def distinct (inputs : List Bytes) : List Bytes :=
  inputs.foldl (fun seen x => if x ∈ seen then seen else seen ++ [x]) []

/-- A key for the Toeplitz hash: at least one 32-bit word, whole words. -/
def KeyOk (key : Bytes) : Prop := 4 ≤ key.length ∧ 4 ∣ key.length

instance (key : Bytes) : Decidable (KeyOk key) := by unfold KeyOk; infer_instance

/-- The key in use: the last acceptable one, at first four zero bytes. -/
def currentKey (keys : List Bytes) : Bytes :=
  ((keys.filter (KeyOk ·)).getLast?).getD [0, 0, 0, 0]

end Bm.Hash.Spec
