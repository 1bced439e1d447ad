import Verif.Model.Counters

/-!
# What is expected of counters
-/

namespace Bm.Counters.Spec

/-- A list is made of the lists of several threads, each in its order. -/
inductive Interleave {α : Type} : List (List α) → List α → Prop
  | nil (n : Nat) : Interleave (List.replicate n []) []
  | cons (pre : List (List α)) (a : α) (l : List α) (post : List (List α)) (m : List α) :
      Interleave (pre ++ l :: post) m → Interleave (pre ++ (a :: l) :: post) (a :: m)

/-- Value of one variable of counter `i` after operations that are done at once; `v` is the value before. -/
def value (h : Half) (i : Nat) (v : Nat) : List Op → Nat
  | [] => v
  | .inc j len :: os =>
    value h i (if j = i then (v + (match h with | .bytes => len | .packets => 1)) % 2 ^ 64 else v) os
  | .set j b p :: os => value h i (if j = i then (match h with | .bytes => b | .packets => p) else v) os
  | .get _ _ :: os => value h i v os

/-- What queries read when operations are done at once; `v` has the values before. -/
def reads (h : Half) : (Nat → Nat) → List Op → List (Nat × Nat)
  | _, [] => []
  | v, .get q i :: os => (q, v i) :: reads h v os
  | v, o :: os => reads h (fun i => value h i (v i) [o]) os

/-- Bytes and packets a list of calls counts at index `i`. -/
def total (i : Nat) : List Call → Nat × Nat
  | [] => (0, 0)
  | .count idx len :: cs => if idx = i then ((total i cs).1 + len, (total i cs).2 + 1) else total i cs
  | _ :: cs => total i cs

/-- Calls that only count, at indices that fit into 32 bits, and read. -/
def CountsOnly (cs : List Call) : Prop :=
  ∀ c ∈ cs, (∃ idx len, c = .count idx len ∧ 0 ≤ idx ∧ idx < 2 ^ 32) ∨ ∃ q idx, c = .read q idx

/-- Value of one of the variables. -/
def half (h : Half) (c : Counter) : Nat :=
  match h with
  | .bytes => c.bytes
  | .packets => c.packets

/-- `conv` keeps the numbers that fit into 32 bits, and its results fit. -/
structure ConvOk (conv : Int → Nat) : Prop where
  keeps : ∀ v : Int, 0 ≤ v → v < 2 ^ 32 → (conv v : Int) = v
  fits : ∀ v, conv v < 2 ^ 32

end Bm.Counters.Spec
