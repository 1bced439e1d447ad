import Verif.Model.ByteCont

/-!
# Byte containers: what their users see

A container is a list of bytes, and operations on one container change no other one.
-/

namespace Bm.ByteCont.Spec

/-- The containers in use and their bytes. -/
abbrev St := Nat → Option Bytes

/-- Container `i` has the bytes `b`. -/
def upd (s : St) (i : Nat) (b : Option Bytes) : St := fun j => if j = i then b else s j

/-- The bytes of a source for container `i`: never `i` itself. -/
def src (s : St) (i : Nat) : Src → Option Bytes
  | .cont j => if j = i then none else s j
  | .raw bs => some bs

/-- A position of the list is replaced by bytes which are inserted there. -/
def splice (l : Bytes) (pos : Nat) (bs : Bytes) : Bytes := l.take pos ++ bs ++ l.drop pos

/-- The result of an operation: undefined for containers which are not in use, for positions after the end, and if a
container is its own source; a failed assertion if an index is too big or sizes differ. -/
def step (s : St) : Op → Except Fault St
  | .new i k =>
    match s i, (match k with
      | .empty => some []
      | .fill n x => some (List.replicate n x)
      | .copy c => src s i c) with
    | none, some b => .ok (upd s i (some b))
    | _, _ => .error .ub
  | .destroy i => if s i = none then .error .ub else .ok (upd s i none)
  | .assign i j =>
    match s i, src s i (.cont j) with
    | some _, some b => .ok (upd s i (some b))
    | _, _ => .error .ub
  | .insert i pos c =>
    match s i, src s i c with
    | some l, some b => if pos ≤ l.length then .ok (upd s i (some (splice l pos b))) else .error .ub
    | _, _ => .error .ub
  | .append i c =>
    match s i, src s i c with
    | some l, some b => .ok (upd s i (some (l ++ b)))
    | _, _ => .error .ub
  | .push i x =>
    match s i with
    | some l => .ok (upd s i (some (l ++ [x])))
    | none => .error .ub
  | .set i n x =>
    match s i with
    | some l => if n < l.length then .ok (upd s i (some (l.set n x))) else .error .abort
    | none => .error .ub
  | .clear i => if s i = none then .error .ub else .ok (upd s i (some []))
  | .reserve i _ => if s i = none then .error .ub else .ok s
  | .resize i n x =>
    match s i with
    | some l => .ok (upd s i (some (l.take n ++ List.replicate (n - l.length) x)))
    | none => .error .ub
  | .mask i j =>
    match s i, s j with
    | some l, some m =>
      if l.length = m.length then .ok (upd s i (some (List.zipWith (· &&& ·) l m))) else .error .abort
    | _, _ => .error .ub

/-- Two ranges of addresses have no address in common. -/
def Apart (a n b m : Nat) : Prop := ∀ x, ¬(a ≤ x ∧ x < a + n ∧ b ≤ x ∧ x < b + m)

end Bm.ByteCont.Spec
