import Verif.Model.Const

/-!
# What constants mean

The errors of a program are a list of names and values, its enums a list of names with their entries
(`/repo/docs/JSON_format.md:233-265`).
-/

namespace Bm.Const.Spec

open Bm.Parse (Err Op PState)

/-- The errors of core.p4. -/
def core : List String :=
  ["NoError", "PacketTooShort", "NoMatch", "StackOutOfBounds", "HeaderTooShort", "ParserTimeout", "ParserInvalidArgument"]

/-- No name and no value is used twice. -/
def Unique (es : List (String × Int)) : Prop := (es.map Prod.fst).Nodup ∧ (es.map Prod.snd).Nodup

instance (es : List (String × Int)) : Decidable (Unique es) := inferInstanceAs (Decidable (_ ∧ _))

/-- The range of values in the documentation; `2^31 - 1` is reserved. -/
def Documented (es : List (String × Int)) : Prop := ∀ p ∈ es, 0 ≤ p.2 ∧ p.2 < 2 ^ 31 - 1

instance (es : List (String × Int)) : Decidable (Documented es) := inferInstanceAs (Decidable (∀ p ∈ es, _))

/-- The core errors the program does not declare. -/
def undeclared (es : List (String × Int)) : List String := core.filter (fun n => n ∉ es.map Prod.fst)

/-- `val` is a meaning of the errors: declared ones have their values, all core errors have a value, nothing else has; no two errors
have the same value; the reserved value belongs to none. -/
structure Meaning (es : List (String × Int)) (val : String → Option Int) : Prop where
  declared : ∀ n v, (n, v) ∈ es → val n = some v
  core : ∀ n ∈ core, ∃ v, val n = some v
  only : ∀ n v, val n = some v → (n, v) ∈ es ∨ n ∈ Spec.core
  apart : ∀ n n' v, val n = some v → val n' = some v → n = n'
  range : ∀ n v, val n = some v → 0 ≤ v ∧ v < 2 ^ 31 - 1

/-- The error the packet has when the parser ends. -/
def final (val : String → Option Int) : Option Err → Option Int
  | none => val "NoError"
  | some .packetTooShort => val "PacketTooShort"
  | some .headerTooShort => val "HeaderTooShort"
  | some .stackOutOfBounds => val "StackOutOfBounds"
  | some .invalidArgument => val "ParserInvalidArgument"
  | some (.arch v) => some v

/-- The operation raises errors of the program only. -/
def Raises (val : String → Option Int) : Op → Prop
  | .verify _ err => ∀ phv v, err phv = some v → ∃ n, val n = some v
  | _ => True

/-- Enums: no enum declared twice, within an enum no name and no value used twice. -/
def EnumsUnique (ds : List (String × List (String × Int))) : Prop :=
  (ds.map Prod.fst).Nodup ∧ ∀ d ∈ ds, Unique d.2

/-- The constant `e.n` is declared with value `v`. -/
def Constant (ds : List (String × List (String × Int))) (e n : String) (v : Int) : Prop := ∃ es, (e, es) ∈ ds ∧ (n, v) ∈ es

/-- Identifiers have no dots. -/
def NoDot (s : String) : Prop := '.' ∉ s.toList

instance (s : String) : Decidable (NoDot s) := inferInstanceAs (Decidable (_ ∉ _))

end Bm.Const.Spec
