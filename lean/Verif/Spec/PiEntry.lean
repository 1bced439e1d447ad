import Verif.Model.PiEntry
import Verif.Spec.KeyBuilder

/-!
# Specification of table entries as PI sees them (C90)

A match key is a list of numbers, one or two per field; its byte string is the big-endian numbers
one after the other.  Only the types of the model are used.
-/

namespace Bm.PiEntry.Spec
open Bm.Spec

/-- The match of one field in terms of numbers. -/
inductive Val
  | valid (b : Bool)
  | exact (x : Nat)
  | lpm (x len : Nat)
  | ternary (x mask : Nat)
  | range (lo hi : Nat)
deriving DecidableEq, Repr

/-- `l` is the number `x` in as many whole bytes as `w` bits need, most significant first. -/
def IsNum (w x : Nat) (l : Bytes) : Prop := l.length = (w + 7) / 8 ∧ bytesNat l = x

/-- `l` is what PI passes for the match `v` of field `f`. -/
def Encodes1 (f : PiF) (v : Val) (l : Bytes) : Prop :=
  match f.type, v with
  | .valid, .valid b => l = [if b then 1 else 0]
  | .exact, .exact x => IsNum f.bitwidth x l
  | .lpm, .lpm x len => ∃ a b, l = a ++ b ∧ IsNum f.bitwidth x a ∧
      b.length = 4 ∧ bytesNat b.reverse = len
  | .ternary, .ternary x m => ∃ a b, l = a ++ b ∧ IsNum f.bitwidth x a ∧ IsNum f.bitwidth m b
  | .optional, .ternary x m => ∃ a b, l = a ++ b ∧ IsNum f.bitwidth x a ∧ IsNum f.bitwidth m b
  | .range, .range lo hi => ∃ a b, l = a ++ b ∧ IsNum f.bitwidth lo a ∧ IsNum f.bitwidth hi b
  | _, _ => False

/-- `l` is what PI passes for the matches `vs` of the fields `fs`. -/
inductive Encodes : List PiF → List Val → Bytes → Prop
  | nil : Encodes [] [] []
  | cons {f fs v vs a l} : Encodes1 f v a → Encodes fs vs l → Encodes (f :: fs) (v :: vs) (a ++ l)

/-- The matches that the P4Runtime specification allows: numbers within the width of the field,
ignored bits zero. -/
def Canonical (f : PiF) (v : Val) : Prop :=
  match v with
  | .valid _ => True
  | .exact x => x < 2 ^ f.bitwidth
  | .lpm x len => x < 2 ^ f.bitwidth ∧ len ≤ f.bitwidth ∧ 2 ^ (f.bitwidth - len) ∣ x
  | .ternary x m => x < 2 ^ f.bitwidth ∧ m < 2 ^ f.bitwidth ∧ x &&& m = x
  | .range lo hi => lo ≤ hi ∧ hi < 2 ^ f.bitwidth

/-- A packet whose field has the value `x` meets the match. -/
def Meets (f : PiF) (v : Val) (x : Nat) : Prop :=
  match v with
  | .valid b => x = if b then 1 else 0
  | .exact y => x = y
  | .lpm y len => x / 2 ^ (f.bitwidth - len) = y / 2 ^ (f.bitwidth - len)
  | .ternary y m => x &&& m = y &&& m
  | .range lo hi => lo ≤ x ∧ x ≤ hi

/-- All matches canonical. -/
def AllCanonical (fs : List PiF) (vs : List Val) : Prop :=
  ∀ (i : Nat) (f : PiF) (v : Val), fs[i]? = some f → vs[i]? = some v → Canonical f v

/-- The packet with these field bytes meets all matches. -/
def AllMeet (fs : List PiF) (vs : List Val) (vals : List Bytes) : Prop :=
  ∀ (i : Nat) (f : PiF) (v : Val) (b : Bytes), fs[i]? = some f → vs[i]? = some v →
    vals[i]? = some b → Meets f v (bytesNat b)

/-- The field as the table declares it: `optional` is a ternary match, validity has eight bits. -/
def declared (f : PiF) : KeyF :=
  match f.type with
  | .valid => ⟨.valid, 8, none⟩
  | .exact => ⟨.exact, f.bitwidth, none⟩
  | .lpm => ⟨.lpm, f.bitwidth, none⟩
  | .ternary => ⟨.ternary, f.bitwidth, none⟩
  | .optional => ⟨.ternary, f.bitwidth, none⟩
  | .range => ⟨.range, f.bitwidth, none⟩

end Bm.PiEntry.Spec
