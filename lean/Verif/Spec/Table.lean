import Verif.Spec.Lookup

/-!
# Specification of a match table (C06–C09)

The state is a partial function from handles to entries (key and value).  Handles are numbers;
nothing is said about how new handles are chosen except that they are not in use, and that the
low 24 bits (the slot) are used to break ties between equally good matches.
-/

namespace Bm.Spec
variable {K V : Type}

/-- Reasons for refusing a call. -/
inductive TErr
  | noKey | badKey | duplicate | full | stale
deriving DecidableEq, Repr

/-- Calls.  A key of `none` stands for malformed match parameters. -/
inductive TOp (K V : Type)
  | add (k : Option K) (v : V) (now : Nat)
  | delete (h : Nat)
  | modify (h : Nat) (v : V)
  | get (h : Nat)
  | retrieve (k : Option K)
  | lookup (q : List UInt8) (nbytes ts : Nat)
  | handles
  | count
  | reset
  | setTtl (h ttl now : Nat)
  | writeCounters (h bytes packets : Nat)

/-- Results. -/
inductive TOut (K V : Type)
  | err (e : TErr)
  | done
  | handle (h : Nat)
  | entry (k : K) (v : V)
  | miss
  | hit (h : Nat) (v : V)
  | handles (l : List Nat)
  | num (n : Nat)
deriving DecidableEq

/-- The slot part of a handle. -/
def slotOf (h : Nat) : Nat := h % 2 ^ 24

/-- `l` lists the live handles. -/
def Live (T : Nat → Option (K × V)) (l : List Nat) : Prop :=
  l.Nodup ∧ ∀ h, h ∈ l ↔ (T h).isSome = true

/-- Some live entry has the same match key. -/
def HasSame (sp : MatchSpec K) (T : Nat → Option (K × V)) (k : K) : Prop :=
  ∃ h k' v', T h = some (k', v') ∧ sp.same k' k

/-- Allowed transitions of a table with `size` slots. -/
def TStep (sp : MatchSpec K) (size : Nat) (keyless : Bool) (T : Nat → Option (K × V)) :
    TOp K V → (Nat → Option (K × V)) → TOut K V → Prop
  | .add key v _, T', out =>
    match keyless, key with
    | true, _ => out = .err .noKey ∧ T' = T
    | false, none => out = .err .badKey ∧ T' = T
    | false, some k =>
      (HasSame sp T k ∧ out = .err .duplicate ∧ T' = T) ∨
      (¬ HasSame sp T k ∧ (∃ l, Live T l ∧ l.length = size) ∧ out = .err .full ∧ T' = T) ∨
      (¬ HasSame sp T k ∧ (∃ l, Live T l ∧ l.length < size) ∧
        ∃ h, out = .handle h ∧ h < 2 ^ 32 ∧ T h = none ∧
          (∀ h', (T h').isSome = true → slotOf h' ≠ slotOf h) ∧
          T' = fun h' => if h' = h then some (k, v) else T h')
  | .delete h, T', out =>
    ((T h).isSome = true ∧ out = .done ∧ T' = fun h' => if h' = h then none else T h') ∨
    (T h = none ∧ out = .err .stale ∧ T' = T)
  | .modify h v, T', out =>
    (∃ k v', T h = some (k, v') ∧ out = .done ∧
      T' = fun h' => if h' = h then some (k, v) else T h') ∨
    (T h = none ∧ out = .err .stale ∧ T' = T)
  | .get h, T', out =>
    T' = T ∧ ((∃ k v, T h = some (k, v) ∧ out = .entry k v) ∨ (T h = none ∧ out = .err .stale))
  | .retrieve key, T', out =>
    T' = T ∧
    match key with
    | none => out = .err .badKey
    | some k => (∃ h k' v', T h = some (k', v') ∧ sp.same k' k ∧ out = .handle h) ∨
        (¬ HasSame sp T k ∧ out = .err .badKey)
  | .lookup q _ _, T', out =>
    T' = T ∧
    ((out = .miss ∧ ∀ h k v, T h = some (k, v) → ¬ sp.m q k) ∨
     (∃ h k v, out = .hit h v ∧ T h = some (k, v) ∧ sp.m q k ∧
        ∀ h' k' v', T h' = some (k', v') → sp.m q k' →
          sp.prio k < sp.prio k' ∨ (sp.prio k = sp.prio k' ∧ slotOf h ≤ slotOf h')))
  | .handles, T', out => T' = T ∧ ∃ l, Live T l ∧ out = .handles l
  | .count, T', out => T' = T ∧ ∃ l, Live T l ∧ l.length ≤ size ∧ out = .num l.length
  | .reset, T', out => (T' = fun _ => none) ∧ out = .done
  | .setTtl _ _ _, T', out => T' = T ∧ (out = .done ∨ out = .err .stale)
  | .writeCounters _ _ _, T', out => T' = T ∧ (out = .done ∨ out = .err .stale)

/-- Obligations of the caller: keys are well formed for this table. -/
def TOp.Valid (sp : MatchSpec K) : TOp K V → Prop
  | .add (some k) _ _ => sp.okK k
  | .retrieve (some k) => sp.okK k
  | .lookup q _ _ => sp.okQ q
  | _ => True

/-- Allowed results of a history, ending in the given state. -/
inductive TTrace (sp : MatchSpec K) (size : Nat) (keyless : Bool) :
    (Nat → Option (K × V)) → List (TOp K V) → List (TOut K V) → (Nat → Option (K × V)) → Prop
  | nil (T) : TTrace sp size keyless T [] [] T
  | cons {T T' T'' op out ops outs} : TStep sp size keyless T op T' out →
      TTrace sp size keyless T' ops outs T'' →
      TTrace sp size keyless T (op :: ops) (out :: outs) T''

/-- How many of the results hand out a handle in the given slot; paired with the operations, only
additions count. -/
def reuses (slot : Nat) : List (TOp K V) → List (TOut K V) → Nat
  | .add _ _ _ :: ops, .handle h :: outs =>
    (if slotOf h = slot then 1 else 0) + reuses slot ops outs
  | _ :: ops, _ :: outs => reuses slot ops outs
  | _, _ => 0

end Bm.Spec
