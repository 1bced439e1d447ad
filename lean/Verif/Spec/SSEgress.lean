import Verif.Spec.SimpleSwitch

/-!
# What is said about egress of `simple_switch`
-/

namespace Bm.SSwitch

/-- What clones there are after egress: headers and payload are those of the packet. -/
def EClones (c : Cfg) (p0 : Phv) (p : Pkt) (es : List Eff) : Prop :=
  let sess := getFlag cloneSession p.regs
  (sess = 0 → es = []) ∧
  (sess ≠ 0 → c.session (sess &&& sessionMask).toNat = none → es = []) ∧
  (sess ≠ 0 → ∀ s, c.session (sess &&& sessionMask).toNat = some s → ∃ list,
    c.fieldLists (getFlag cloneList p.regs).toNat = some list ∧
    Mirrors c p0 s { inPort := p.inPort, inLen := p.inLen, data := p.data, size := p.regs lenReg, headers := p.phv,
                     md := (zeroBut p0 list (mval p.phv)).put p0 c.names.instanceType 2 } es)

/-- The fate of the packet after egress. -/
inductive EFate (c : Cfg) (p0 : Phv) (p : Pkt) : List Eff → Prop
  | drop : mval p.phv c.names.egressSpec = some (c.dropPort : Int) → EFate c p0 p []
  | recirculate (phv stale : Phv) (bytes : Bytes) (list : List Ref) (q : Pkt) :
      mval p.phv c.names.egressSpec ≠ some (c.dropPort : Int) → c.deparser p.phv p.data = some (phv, bytes) →
      getFlag recirculateFlag p.regs ≠ 0 → c.fieldLists (getFlag recirculateFlag p.regs).toNat = some list →
      Made p0 stale → NoFlags q → q.trunc = noTrunc →
      Has c q { inPort := p.inPort, inLen := min bytes.length noTrunc, data := bytes,
                size := BitVec.ofNat 64 (min bytes.length noTrunc), headers := stale,
                md := ((zeroBut p0 list (mval phv)).put p0 c.names.instanceType 4).put p0 c.names.packetLength
                  (min bytes.length noTrunc : Nat) } →
      EFate c p0 p [.recirculate q]
  | transmit (phv : Phv) (bytes : Bytes) (q : Pkt) :
      mval p.phv c.names.egressSpec ≠ some (c.dropPort : Int) → c.deparser p.phv p.data = some (phv, bytes) →
      getFlag recirculateFlag p.regs = 0 → transmit q = (p.ePort, bytes.take p.trunc) →
      EFate c p0 p [.transmit q]

end Bm.SSwitch
