import Verif.Model.RegLocks

/-!
# Specification of exclusive access to registers (C108)
-/

namespace Bm.RegLocks.Spec

/-- The arrays an operator reads. -/
def Op.touches : Op → List Nat
  | .regRef a _ => [a]
  | .regGen a => [a]
  | .other => []

/-- The arrays an expression reads. -/
def exprTouches (ops : List Op) : List Nat := ops.flatMap Op.touches

/-- The arrays that are accessed when a primitive uses a parameter. -/
def paramTouches : Param → List Nat
  | .regRef a _ => [a]
  | .regGen a idx => exprTouches idx ++ [a]
  | .regArray a => [a]
  | .expr ops => exprTouches ops
  | .other => []

/-- The arrays an operation of a parse state accesses. -/
def opTouches : POp → List Nat
  | .setExpr ops => exprTouches ops
  | .advanceExpr ops => exprTouches ops
  | .verify cond err => exprTouches cond ++ exprTouches err
  | .call ps => ps.flatMap paramTouches
  | .other => []

/-- The arrays a task may access. -/
def touches : Kind → List Nat
  | .action ps => ps.flatMap paramTouches
  | .state ops => ops.flatMap opTouches
  | .deparse calls => calls.flatMap fun ps => ps.flatMap paramTouches
  | .request a => [a]
  | .condition ops => exprTouches ops
  | .reset a => [a]

/-- The task does what its kind says. -/
def Honest {σ : Type} (t : Task σ) : Prop := ∀ l a f, t.next l = some (a, f) → a ∈ touches t.kind

/-- Neither `register_reset`, nor a condition, an `advance` or a `verify` that reads registers. -/
def Quiet : Kind → Prop
  | .state ops => ∀ o ∈ ops, match o with
    | .advanceExpr e => exprTouches e = []
    | .verify c e => exprTouches c = [] ∧ exprTouches e = []
    | _ => True
  | .condition ops => exprTouches ops = []
  | .reset _ => False
  | _ => True

/-- A task executed alone, from what it knows and the arrays to its result and the arrays. -/
inductive Alone {σ : Type} (t : Task σ) : σ → Store → σ → Store → Prop
  | done {l S} : t.next l = none → Alone t l S l S
  | access {l S a f r S'} : t.next l = some (a, f) →
      Alone t (f (S a)).2 (fun b => if b = a then (f (S a)).1 else S b) r S' → Alone t l S r S'

/-- Tasks executed one after the other, with their results. -/
inductive Serial {σ : Type} (T : Nat → Task σ) : List (Nat × σ) → Store → Store → Prop
  | nil {S} : Serial T [] S S
  | snoc {log S S' t r S''} : Serial T log S S' → Alone (T t) (T t).init S' r S'' → Serial T (log ++ [(t, r)]) S S''

end Bm.RegLocks.Spec
