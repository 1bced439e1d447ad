import Mathlib.Data.Finset.Card

/-!
# Specification of slot allocation (C01)

Independent of the model: the state is a finite set of natural numbers.
-/

namespace Bm.Spec

/-- Operations a client can perform on a slot allocator. -/
inductive HOp
  | alloc
  | release (i : Nat)
  | clear
  | test (i : Nat)
  | enumerate
  | count

/-- Observable results. -/
inductive HOut
  | slot (n : Nat)
  | bool (b : Bool)
  | slots (l : List Nat)
  | num (n : Nat)
  | unit
deriving DecidableEq

/-- What each operation may return, and how it changes the set of slots in use. -/
inductive HStep : Finset Nat → HOp → Finset Nat → HOut → Prop
  | alloc (S : Finset Nat) (n : Nat) : n ∉ S → (∀ m < n, m ∈ S) →
      HStep S .alloc (insert n S) (.slot n)
  | release (S : Finset Nat) (i : Nat) :
      HStep S (.release i) (S.erase i) (.bool (decide (i ∈ S)))
  | clear (S : Finset Nat) : HStep S .clear ∅ .unit
  | test (S : Finset Nat) (i : Nat) : HStep S (.test i) S (.bool (decide (i ∈ S)))
  | enumerate (S : Finset Nat) (l : List Nat) : l.Pairwise (· < ·) → (∀ x, x ∈ l ↔ x ∈ S) →
      HStep S .enumerate S (.slots l)
  | count (S : Finset Nat) : HStep S .count S (.num S.card)

/-- A trace of results allowed for a list of operations. -/
inductive HTrace : Finset Nat → List HOp → List HOut → Prop
  | nil (S) : HTrace S [] []
  | cons {S S' op out ops outs} : HStep S op S' out → HTrace S' ops outs →
      HTrace S (op :: ops) (out :: outs)

end Bm.Spec
