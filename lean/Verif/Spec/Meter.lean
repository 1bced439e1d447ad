/-!
# Specification of meters (C21–C24)

A meter has `N` levels, numbered from 1, each a token bucket with a burst size and a function giving
the tokens accrued up to a time.  A packet of size `sz` that finds less than `sz` tokens in the
bucket of level `k` violates level `k`; it gets the number of the most severe (highest) level it
violates, 0 if none, and pays with `sz` tokens in the buckets above that level.
-/

namespace Bm.Spec.Meter

/-- A level: burst size and cumulative allowance. -/
structure Level where
  burst : Nat
  acc : Nat → Nat

/-- A packet seen in the past: time, size, level it got. -/
structure Seen where
  time : Nat
  size : Nat
  level : Nat

/-- Tokens of level `k` available at time `t`, given the packets seen (latest first). -/
def avail (L : Level) (k : Nat) : List Seen → Nat → Nat
  | [], _ => L.burst
  | p :: ps, t =>
    min L.burst (avail L k ps p.time - (if p.level < k then p.size else 0) + (L.acc t - L.acc p.time))

/-- `v` is the level a packet of size `sz` at time `t` must get: it violates `v` (if `v ≠ 0`) and no
higher level.  `Ls[k - 1]` is level `k`. -/
def Gets (Ls : List Level) (ps : List Seen) (t sz v : Nat) : Prop :=
  v ≤ Ls.length ∧
  (∀ L, v ≠ 0 → Ls[v - 1]? = some L → avail L v ps t < sz) ∧
  (∀ k L, v < k → Ls[k - 1]? = some L → sz ≤ avail L k ps t)

/-- The colours `cs` returned for the packets `(time, size, incoming colour)` are right, after `ps`. -/
def Colours (Ls : List Level) : List Seen → List (Nat × Nat × Nat) → List Nat → Prop
  | _, [], [] => True
  | ps, (t, sz, pre) :: pkts, c :: cs =>
    ∃ v, Gets Ls ps t sz v ∧ c = max pre v ∧ Colours Ls (⟨t, sz, v⟩ :: ps) pkts cs
  | _, _, _ => False

/-- Units of the packets with a colour below `k`. -/
def passed (k : Nat) : List (Nat × Nat × Nat) → List Nat → Nat
  | (_, sz, _) :: pkts, c :: cs => (if c < k then sz else 0) + passed k pkts cs
  | _, _ => 0

end Bm.Spec.Meter
