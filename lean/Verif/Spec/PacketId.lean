import Verif.Model.PacketId

/-! # Histories of packets for which identities are claimed to be distinct -/

namespace Bm.PktId

/-- No packet is alive that uses the counter of `id`. -/
def St.Free (s : St) (id : Nat) : Prop := ∀ p ∈ s.pkts, p.phv = true → p.id % W ≠ id % W

/-- What is required of an operation: a packet arrives only if no packet is alive whose id is the same
modulo 4096, moved-from packets only are assigned to, and (if `quiet`) counters are not updated by two
threads at the same time. -/
def Sound (quiet : Prop) (s : St) : Op → Prop
  | .arrive id => s.Free id
  | .destroy _ stale => quiet → stale = 0
  | .moveAssign i _ => ∀ p, s.pkts[i]? = some p → p.phv = false
  | _ => True

/-- The same for a history. -/
def SoundRun (quiet : Prop) : St → List Op → Prop
  | _, [] => True
  | s, op :: ops => Sound quiet s op ∧ ∀ s', s.exec op = some s' → SoundRun quiet s' ops

/-- The packet cloned by an operation has a given id. -/
def clonesId (s : St) (id : Nat) : Op → Bool
  | .clone i => match s.pkts[i]? with
    | some p => decide (p.id = id)
    | none => false
  | _ => false

/-- The number of clones made of packets with a given id. -/
def cloneCount (id : Nat) : St → List Op → Nat
  | _, [] => 0
  | s, op :: ops => (if clonesId s id op then 1 else 0) +
    match s.exec op with
    | some s' => cloneCount id s' ops
    | none => 0

/-- The counters of the packets cloned have not reached their maximum. -/
def CountersFit : St → List Op → Prop
  | _, [] => True
  | s, op :: ops => (∀ i p, op = .clone i → s.pkts[i]? = some p → p.phv = true →
      (s.slots (p.id % W)).max < 2 ^ 16 - 1 ∧ (s.slots (p.id % W)).num < 2 ^ 16 - 1) ∧
    ∀ s', s.exec op = some s' → CountersFit s' ops

end Bm.PktId
