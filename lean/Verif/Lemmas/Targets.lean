import Verif.Spec.Targets
import Verif.Lemmas.SimpleSwitch

/-!
# Lemmas about the small targets
-/

namespace Bm.Targets

open Bm.SSwitch Bm.Targets.Spec

theorem Plain.isSome {p0 : Phv} {r : Ref} (h : Plain p0 r) : (mfield p0 r).isSome = true := by
  obtain ⟨f, h1, _⟩ := h
  rw [h1]; rfl

theorem getF_plain {rz : Bool} {p0 p : Phv} (m : Made p0 p) {r : Ref} (h : Plain p0 r) : getF rz p r = mval p r :=
  getF_meta (m.some_of (Plain.isSome h))

theorem getInt_some {v i : Int} (h : Act.getInt v = some i) : i = v := by
  unfold Act.getInt at h
  split at h
  · cases h
  · cases h; rfl

/-- A packet not marked for exit. -/
theorem finish_through {g : Prog} {x q : Pkt} (hx : x.exit = false) (e : finish g x = some q) :
    through g.egress g.deparser x q := by
  simp only [finish, apply, hx, Bool.false_eq_true, if_false, Option.bind_eq_bind, Option.bind_eq_some_iff,
    Option.pure_def, Option.some.injEq] at e
  obtain ⟨y, h1, r, h2, rfl⟩ := e
  exact ⟨y, r, h1, h2, rfl⟩

theorem copies_spec {g : Prog} {p0 : Phv} {p : Pkt} (m : Made p0 p.phv) :
    ∀ {ports : List Nat} {o : Oracle} {qs : List Pkt}, (∀ i, Made p0 (o i).stale) →
      l2Copies g o p ports = some qs →
      Delivers g.egress g.deparser p (mval p.phv) (ports.filter fun x => x ≠ p.inPort) qs
  | [], o, qs, _, e => by
    cases e
    exact .nil
  | port :: ports, o, qs, ho, e => by
    rw [l2Copies] at e
    split at e
    · rename_i h
      rw [List.filter_cons_of_neg (by simp [h])]
      exact copies_spec m ho e
    · rename_i h
      rw [List.filter_cons_of_pos (by simpa using fun k => h k.symm)]
      simp only [Option.bind_eq_bind, Option.bind_eq_some_iff, Option.pure_def, Option.some.injEq] at e
      obtain ⟨q, h1, qs', h2, rfl⟩ := e
      refine .cons ⟨_, ?_, finish_through rfl h1⟩ (copies_spec m (fun i => ho _) h2)
      obtain ⟨k1, k2, k3⟩ := copy_spec (rz := g.rz) (ho 0) m
      exact ⟨rfl, rfl, rfl, rfl, k2, fun r => by
        show mval (Phv.copyHeaders g.rz (o 0).stale p.phv) r = _
        unfold mval
        rw [k3 r]⟩

end Bm.Targets
