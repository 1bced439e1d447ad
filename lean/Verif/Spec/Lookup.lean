import Verif.Spec.Bits

/-!
# Specification of prioritised lookup (C04, C05)

Installed entries are a partial function from slots to keys.
-/

namespace Bm.Spec

/-- `r` is the slot of the best installed entry matching the lookup key: no matching entry has a
strictly smaller priority number, and among equals the lowest slot wins; `none` iff nothing
matches. -/
def IsBest {K : Type} (prio : K → Int) (m : K → Prop) (E : Nat → Option K) : Option Nat → Prop
  | none => ∀ i k, E i = some k → ¬ m k
  | some h => ∃ k, E h = some k ∧ m k ∧
      ∀ i k', E i = some k' → m k' → prio k < prio k' ∨ (prio k = prio k' ∧ h ≤ i)

/-- Value of a byte string as a big-endian number. -/
def bytesNat : List UInt8 → Nat
  | [] => 0
  | b :: bs => b.toNat * 256 ^ bs.length + bytesNat bs

/-- Ternary match: the masked key equals the stored data. -/
def TernMatches (key data mask : List UInt8) : Prop :=
  List.zipWith (· &&& ·) key mask = data

/-- Range match: successive segments of the key lie between the bounds, as big-endian numbers;
the rest is a ternary match. -/
def RangeMatches : List Nat → List UInt8 → List UInt8 → List UInt8 → Prop
  | [], key, lo, hi => TernMatches key lo hi
  | w :: ws, key, lo, hi =>
    bytesNat (lo.take w) ≤ bytesNat (key.take w) ∧ bytesNat (key.take w) ≤ bytesNat (hi.take w) ∧
    RangeMatches ws (key.drop w) (lo.drop w) (hi.drop w)

/-! ## Histories of updates and lookups on one lookup structure -/

/-- What a kind of table is about: admissible lookup keys and entries, when an entry matches,
its priority number, and when two entries count as the same. -/
structure MatchSpec (K : Type) where
  okQ : List UInt8 → Prop
  okK : K → Prop
  m : List UInt8 → K → Prop
  prio : K → Int
  same : K → K → Prop

/-- Operations on a lookup structure. -/
inductive SOp (K : Type)
  | add (k : K) (slot : Nat)
  | delete (k : K)
  | lookup (q : List UInt8)
  | clear

/-- Visible results. -/
inductive SOut
  | done
  | found (r : Option Nat)
deriving DecidableEq, Repr

variable {K : Type}

/-- Obligations of the caller: a new entry differs from all installed ones and goes to the lowest
free slot; only installed entries are deleted. -/
def SOp.Valid (sp : MatchSpec K) (size : Nat) (E : Nat → Option K) : SOp K → Prop
  | .add k slot => sp.okK k ∧ slot < size ∧ E slot = none ∧ (∀ j < slot, E j ≠ none) ∧
      ∀ i k', E i = some k' → ¬ sp.same k' k
  | .delete k => ∃ i, E i = some k
  | .lookup q => sp.okQ q
  | .clear => True

open Classical in
/-- Effect on the installed entries. -/
noncomputable def SOp.apply (sp : MatchSpec K) (E : Nat → Option K) : SOp K → Nat → Option K
  | .add k slot => fun i => if i = slot then some k else E i
  | .delete k => fun i => if ∃ k', E i = some k' ∧ sp.same k' k then none else E i
  | .lookup _ => E
  | .clear => fun _ => none

/-- Each operation of the history is valid when it is issued. -/
def SOp.ValidFrom (sp : MatchSpec K) (size : Nat) : (Nat → Option K) → List (SOp K) → Prop
  | _, [] => True
  | E, op :: ops => op.Valid sp size E ∧ SOp.ValidFrom sp size (op.apply sp E) ops

/-- The results are the right ones. -/
def SOp.Answers (sp : MatchSpec K) : (Nat → Option K) → List (SOp K) → List SOut → Prop
  | _, [], outs => outs = []
  | E, op :: ops, outs => ∃ o rest, outs = o :: rest ∧ SOp.Answers sp (op.apply sp E) ops rest ∧
      match op with
      | .lookup q => ∃ r, o = .found r ∧ IsBest sp.prio (sp.m q) E r
      | _ => o = .done

/-- Ternary tables on `n`-byte keys. -/
def ternSpec (n : Nat) {K : Type} (data mask : K → List UInt8) (prio : K → Int) : MatchSpec K where
  okQ q := q.length = n
  okK k := (data k).length = n ∧ (mask k).length = n
  m q k := TernMatches q (data k) (mask k)
  prio := prio
  same a b := data a = data b ∧ mask a = mask b ∧ prio a = prio b

/-- Range tables on `n`-byte keys: the ranges come first. -/
def rangeSpec (n : Nat) {K : Type} (data mask : K → List UInt8) (widths : K → List Nat)
    (prio : K → Int) : MatchSpec K where
  okQ q := q.length = n
  okK k := (data k).length = n ∧ (mask k).length = n ∧ (widths k).sum ≤ n
  m q k := RangeMatches (widths k) q (data k) (mask k)
  prio := prio
  same a b := data a = data b ∧ mask a = mask b ∧ widths a = widths b ∧ prio a = prio b

/-- Exact tables. -/
def exactSpec (n : Nat) : MatchSpec (List UInt8) where
  okQ q := q.length = n
  okK k := k.length = n
  m q k := q = k
  prio _ := 0
  same a b := a = b

/-- LPM tables: longer prefixes come first. -/
def lpmSpec (n : Nat) {K : Type} (data : K → List UInt8) (len : K → Nat) : MatchSpec K where
  okQ q := q.length = n
  okK k := (data k).length = n ∧ len k ≤ 8 * n
  m q k := (bytesBits (data k)).take (len k) = (bytesBits q).take (len k)
  prio k := - (len k : Int)
  same a b := len a = len b ∧ (bytesBits (data a)).take (len a) = (bytesBits (data b)).take (len b)

end Bm.Spec
