import Verif.Model.Swap

/-!
# What is asked of the exchange of configurations
-/

namespace Bm.Swap.Spec

variable {C : Type}

/-- The packet does not leave its context, nor do its clones. -/
def Local : Label C → Prop
  | .cloneTo _ _ => False
  | .change _ _ => False
  | _ => True

/-- The switch has one context (class `Switch`), or no packet leaves its context. -/
def Allowed (n : Nat) (l : Label C) : Prop := n = 1 ∨ Local l

/-- The configuration packets of context `c` are processed with is `x`. -/
def Uses (s : Sw C) (c : Nat) (x : C) : Prop := ∃ k, s.cxts[c]? = some k ∧ k.cur = x

/-- Only thread `t0` calls `swap_configs`. -/
def OneSwapper (t0 : Nat) (l : Label C) : Prop := ∀ t, l = .swap t → t = t0

/-- Only thread `t0` calls `load_new_config`. -/
def OneLoader (t0 : Nat) (l : Label C) : Prop := ∀ t j, l = .load t j → t = t0

/-- The thread is in `load_new_config`. -/
def InLoad : PC C → Prop
  | .loading _ _ => True
  | .storing _ => True
  | _ => False

end Bm.Swap.Spec
