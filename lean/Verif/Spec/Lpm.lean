import Verif.Spec.Bits

/-!
# Specification of longest-prefix match (C02, C03)

The state is a partial function from bit strings (the installed prefixes) to values.
-/

namespace Bm.Spec
variable {α : Type}

/-- Installed prefixes and their values. -/
abbrev PrefixMap (α : Type) := List Bool → Option α

/-- The bit string denoted by a byte string and a prefix length. -/
def prefixBits (p : List UInt8) (len : Nat) : List Bool := (bytesBits p).take len

/-- `r` is the value of the longest installed prefix of the bit string `k`. -/
def IsLpm (M : PrefixMap α) (k : List Bool) : Option α → Prop
  | none => ∀ pre, pre <+: k → M pre = none
  | some v => ∃ pre, pre <+: k ∧ M pre = some v ∧
      ∀ pre', pre' <+: k → pre.length < pre'.length → M pre' = none

/-- Updates. -/
inductive LOp (α : Type)
  | insert (p : List UInt8) (len : Nat) (v : α)
  | delete (p : List UInt8) (len : Nat)
  | clear

/-- The caller's obligations: the byte string has the key's width, the length is at most that. -/
def LOp.Valid (w : Nat) : LOp α → Prop
  | .insert p len _ => p.length = w ∧ len ≤ 8 * w
  | .delete p len => p.length = w ∧ len ≤ 8 * w
  | .clear => True

/-- Effect of an update on the installed prefixes. -/
def LOp.apply (M : PrefixMap α) : LOp α → PrefixMap α
  | .insert p len v => fun b => if b = prefixBits p len then some v else M b
  | .delete p len => fun b => if b = prefixBits p len then none else M b
  | .clear => fun _ => none

/-- Installed prefixes after a history, starting empty. -/
def LOp.after (ops : List (LOp α)) : PrefixMap α := ops.foldl LOp.apply (fun _ => none)

end Bm.Spec
