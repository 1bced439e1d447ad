import Verif.Model.KeyBuilder
import Verif.Spec.Lookup

/-!
# Specification of match keys (C10, C11, C12, C49)

What a match parameter means for one field, in terms of numbers.  Only the types of the
configuration and of the parameters come from the model.
-/

namespace Bm.Spec

/-- The number of a field under the static mask of the table declaration, if any. -/
def underMask (f : KeyF) (x : Nat) : Nat :=
  match f.smask with
  | none => x
  | some m => x &&& bytesNat m

/-- Agreement of two `w`-bit numbers on their `p` most significant bits. -/
def PrefixAgrees (w p x y : Nat) : Prop := x / 2 ^ (w - p) = y / 2 ^ (w - p)

/-- The value of a parameter, reduced to the width of the field. -/
def paramValue (f : KeyF) (p : MParam) : Nat := underMask f (bytesNat p.key % 2 ^ f.nbits)

/-- A packet whose field has value `v` meets the parameter; `cw` is the width in which prefix
lengths are counted (it should be the width of the field). -/
def FieldMatches (cw : Nat → Nat) (f : KeyF) (p : MParam) (v : Nat) : Prop :=
  match f.mtype with
  | .exact => underMask f v = paramValue f p
  | .valid => underMask f v = paramValue f p
  | .ternary => underMask f v &&& bytesNat p.mask = paramValue f p &&& bytesNat p.mask
  | .range => paramValue f p ≤ underMask f v ∧ underMask f v ≤ bytesNat p.mask
  | .lpm => PrefixAgrees (cw f.nbits) p.prefixLength.toNat (underMask f v) (paramValue f p)

/-- Width of the bytes that hold a `w`-bit field. -/
def paddedWidth (w : Nat) : Nat := 8 * ((w + 7) / 8)

/-- `p'` is what one should read back for the parameter `p` of field `f`: the same parameter
with ignored bits cleared.  `keepLow`: low bits outside a prefix are kept (LPM tables). -/
def ReadsBack (keepLow : Bool) (f : KeyF) (p p' : MParam) : Prop :=
  p'.type = f.mtype ∧ p'.key.length = (f.nbits + 7) / 8 ∧
  match f.mtype with
  | .exact => bytesNat p'.key = paramValue f p ∧ p'.mask = [] ∧ p'.prefixLength = 0
  | .valid => bytesNat p'.key = paramValue f p ∧ p'.mask = [] ∧ p'.prefixLength = 0
  | .ternary => bytesNat p'.key = paramValue f p &&& bytesNat p.mask ∧ p'.mask = p.mask ∧
      p'.prefixLength = 0
  | .range => bytesNat p'.key = paramValue f p ∧ p'.mask = p.mask ∧ p'.prefixLength = 0
  | .lpm => p'.mask = [] ∧ p'.prefixLength = p.prefixLength ∧
      (if keepLow then bytesNat p'.key = paramValue f p
       else ∃ s, s = paddedWidth f.nbits - p.prefixLength.toNat ∧
         bytesNat p'.key = paramValue f p / 2 ^ s * 2 ^ s)

/-- Acceptable parameters for one field. -/
def ParamOk (f : KeyF) (p : MParam) : Prop :=
  p.type = f.mtype ∧ p.key.length = (f.nbits + 7) / 8 ∧
  match f.mtype with
  | .exact => True
  | .valid => True
  | .ternary => p.mask.length = (f.nbits + 7) / 8
  | .range => p.mask.length = (f.nbits + 7) / 8 ∧ bytesNat p.key ≤ bytesNat p.mask
  | .lpm => 0 ≤ p.prefixLength ∧ p.prefixLength ≤ f.nbits

/-- One acceptable parameter per declared field. -/
def ParamsOk (fs : List KeyF) (ps : List MParam) : Prop :=
  ps.length = fs.length ∧ ∀ (i : Nat) (f : KeyF) (p : MParam), fs[i]? = some f → ps[i]? = some p →
    ParamOk f p

/-- Field bytes of a packet: one value per declared field, within the width of the field. -/
def ValuesOk (fs : List KeyF) (vals : List (List UInt8)) : Prop :=
  vals.length = fs.length ∧ ∀ (i : Nat) (f : KeyF) (v : List UInt8), fs[i]? = some f →
    vals[i]? = some v → v.length = (f.nbits + 7) / 8 ∧ bytesNat v < 2 ^ f.nbits

/-- Every field of the packet meets its parameter. -/
def AllMatch (cw : Nat → Nat) (fs : List KeyF) (ps : List MParam) (vals : List (List UInt8)) :
    Prop :=
  ∀ (i : Nat) (f : KeyF) (p : MParam) (v : List UInt8), fs[i]? = some f → ps[i]? = some p →
    vals[i]? = some v → FieldMatches cw f p (bytesNat v)

end Bm.Spec
