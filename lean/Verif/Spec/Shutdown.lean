import Verif.Model.Shutdown

/-!
# Specification of shutting down (C107)
-/

namespace Bm.Shutdown.Spec

/-- Elements before the first null pointer. -/
def front : List (Option Nat) → Nat
  | some _ :: l => front l + 1
  | _ => 0

/-- The sum of `f 0`, ..., `f (n - 1)`. -/
def sumTo (f : Nat → Nat) : Nat → Nat
  | 0 => 0
  | n + 1 => sumTo f n + f n

/-- The buffer that gets the null pointer for the ingress thread. -/
def inq (c : Cfg) (s : St) : List (Option Nat) := if c.single then s.lo else s.hi

/-- Packets that may still be sent out: those before the null pointer (if any) in the input buffer, in the hands of threads, in
egress queues, and in the output buffer. -/
def load (c : Cfg) (s : St) : Nat :=
  (if s.ing = .done then 0 else front (inq c s)) +
  (match s.ing with
    | .busy _ | .back _ => 1
    | _ => 0) +
  (s.eq.map fun x => if x.2.isSome then 1 else 0).sum +
  sumTo (fun w => match s.egr w with
    | .busy _ | .out _ | .back _ => 1
    | _ => 0) c.n +
  (s.out.map fun x => if x.isSome then 1 else 0).sum

/-- The destructor has been called, and has done nothing yet; no thread is putting a packet back into the input buffer. -/
structure Called (c : Cfg) (s : St) : Prop where
  main : s.main = .input
  hi : none ∉ s.hi
  lo : none ∉ s.lo
  one : c.single = true → s.hi = []
  ing : s.ing ≠ .done ∧ ∀ p, s.ing ≠ .back p
  eq : ∀ x ∈ s.eq, x.2 ≠ none
  egr : ∀ w, w < c.n → s.egr w ≠ .done ∧ ∀ p, s.egr w ≠ .back p
  out : none ∉ s.out
  tx : s.tx = false

/-- The program does not copy packets; in psa_switch it does not resubmit or recirculate them either. -/
def Modest (c : Cfg) : Label → Prop
  | .ingDone qs => qs.length ≤ 1
  | .egrClone _ _ => False
  | .ingBack | .egrBack _ => c.single = false
  | _ => True

/-- The destructor has returned, and all threads have ended. -/
def Over (c : Cfg) (s : St) : Prop :=
  s.main = .fin ∧ s.ing = .done ∧ (∀ w, w < c.n → s.egr w = .done) ∧ s.tx = true

/-- There is room for `N` packets in the output buffer, and room for a null pointer in the first queue of each egress thread (if
the destructor does not try again, also beside `N` packets). -/
structure Fits (c : Cfg) (N : Nat) : Prop where
  out : N ≤ c.capOut
  room : 0 < c.capOut
  retry : c.retry = true → ∀ i, i < c.n → 0 < c.depth (i, 0)
  once : c.retry = false → ∀ i, i < c.n → N < c.depth (i, 0)

end Bm.Shutdown.Spec
