import Verif.Model.PiRes

/-!
# Idle timeouts, direct counters and direct meters through PI: specification
-/

namespace Bm.PiRes.Spec

/-- Counter data given with an entry: the last ones count. -/
def lastCounter : List Res → Option CounterData
  | [] => none
  | .counter d :: rs => some ((lastCounter rs).getD d)
  | .meter _ :: rs => lastCounter rs

/-- Meter configuration given with an entry: the last one counts. -/
def lastMeter : List Res → Option MeterSpec
  | [] => none
  | .counter _ :: rs => lastMeter rs
  | .meter s :: rs => some ((lastMeter rs).getD s)

/-- What a meter shows after it was configured with `s`: the same bursts, and the same rates or
rates one below. -/
def Shows (s got : MeterSpec) : Prop :=
  (got.cir = s.cir ∨ got.cir + 1 = s.cir) ∧ (got.pir = s.pir ∨ got.pir + 1 = s.pir) ∧
  got.cburst = s.cburst ∧ got.pburst = s.pburst

/-- A configuration that can be asked for: the committed rate is at most the peak rate (below 2^51
units per second), and the bursts have 32 bits; or the one that stands for no configuration. -/
def Proper (s : MeterSpec) : Prop :=
  s = MeterSpec.default ∨
    (s.cir ≤ s.pir ∧ s.pir ≤ 2 ^ 51 ∧ s.cburst < 2 ^ 32 ∧ s.pburst < 2 ^ 32)

/-- Counters after a write of `d` over `cur`: units that are not given keep their value. -/
def written (d : CounterData) (cur : Nat × Nat) : CounterData :=
  ⟨some (d.bytes.getD cur.1), some (d.packets.getD cur.2)⟩

variable {K : Type} {L : LookupStr K} {V : Type}

/-- Nothing changed for the slots other than that of `h`. -/
def OthersSame (t t' : Tbl L V) (h : Nat) : Prop :=
  ∀ h', h' % 2 ^ 24 ≠ h % 2 ^ 24 → counterRead t' h' = counterRead t h' ∧
    meterRead t' h' = meterRead t h' ∧ ∀ now, remaining t' h' now = remaining t h' now

/-- The rest of an idle timeout, in nanoseconds; the timeout is one of whole milliseconds. -/
def restNs (ttlNs elapsedMs : Nat) : Nat := (ttlNs / 1000000 - elapsedMs) * 1000000

end Bm.PiRes.Spec
