import Verif.Spec.Options
import Verif.Model.TargetOpts

/-!
# What the options of the target say

By membership: the values written, wherever they stand.
-/

namespace Bm.TargetOpts.Spec

open Bm.Options (Str)
open Bm.Options.Spec (IsDec)
open Bm.TargetOpts (Ty Val Tok Opts)

/-- The text stands for the value of this type. -/
inductive Means : Ty → Option Str → Val → Prop
  | str (t : Str) : Means .str (some t) (.str t)
  | uint (t : Str) (n : Nat) (h : IsDec t n) (hn : n < 2 ^ 32) : Means .uint (some t) (.uint n)
  | uintPlus (t : Str) (n : Nat) (h : IsDec t n) (hn : n < 2 ^ 32) : Means .uint (some ('+' :: t)) (.uint n)
  | int (t : Str) (n : Nat) (h : IsDec t n) (hn : n < 2 ^ 31) : Means .int (some t) (.int n)
  | intPlus (t : Str) (n : Nat) (h : IsDec t n) (hn : n < 2 ^ 31) : Means .int (some ('+' :: t)) (.int n)
  | intMinus (t : Str) (n : Nat) (h : IsDec t n) (hn : n ≤ 2 ^ 31) : Means .int (some ('-' :: t)) (.int (-(n : Int)))

/-- Written with a minus where no negative number is possible. -/
def NegUint (ty : Ty) (v : Option Str) : Prop := ty = .uint ∧ ∃ t, v = some ('-' :: t)

/-- Boost could split the arguments, all options are known and have a value exactly when they need one. -/
def Splits (o : Opts) (ts : List Tok) : Prop :=
  .bad ∉ ts ∧ ∀ n v, .named n v ∈ ts → ∃ ty, (n, ty) ∈ o ∧ (ty = .flag ↔ v = none)

/-- How often the option is given. -/
def times (ts : List Tok) (n : Str) : Nat := ts.countP (fun t => match t with | .named m _ => m = n | _ => false)

/-- The arguments are right: no option twice, all values can be read. -/
structure Right (o : Opts) (ts : List Tok) : Prop where
  splits : Splits o ts
  once : ∀ n, times ts n ≤ 1
  values : ∀ n v ty, .named n v ∈ ts → (n, ty) ∈ o → ty ≠ .flag → ∃ x, Means ty v x

/-- The names are different. -/
def Distinct (o : Opts) : Prop := (o.map Prod.fst).Nodup

/-- The number given for an option of type unsigned, or the default. -/
inductive Setting (ts : List Tok) (name : String) (d : Nat) : Nat → Prop
  | given (t : Str) (n : Nat) (h : .named name.toList (some t) ∈ ts) (hm : Means .uint (some t) (.uint n)) : Setting ts name d n
  | default (h : ∀ v, .named name.toList v ∉ ts) : Setting ts name d d

/-- The words are those of the text between the commas; a comma at the end starts no word. -/
inductive Words : Str → List Str → Prop
  | nil : Words [] []
  | last (w : Str) (h : w ≠ []) (hc : ',' ∉ w) : Words w [w]
  | cons (w r : Str) (ws : List Str) (hc : ',' ∉ w) (h : Words r ws) : Words (w ++ ',' :: r) (w :: ws)

end Bm.TargetOpts.Spec
