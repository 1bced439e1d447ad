import Mathlib.Data.Finset.Basic
import Mathlib.Data.List.Dedup

/-!
# What is said about port lists
-/

namespace Bm.PiMc.Spec

/-- A list has `p`, and after it nothing that is smaller. -/
def Survives (ports : List Nat) (p : Nat) : Prop := ∃ a b, ports = a ++ p :: b ∧ ∀ q ∈ b, p ≤ q

/-- The last port of a list. -/
def lastPort (ports : List Nat) : Nat := ports.getLast?.getD 0

end Bm.PiMc.Spec
