import Verif.Lemmas.PiMc
import Verif.Props.Pre

/-!
# C88: port lists given through PI
-/

namespace Bm.PiMc

open Bm.Pre Bm.PiMc.Spec Bm.Spec.Mc

/-- **C88**, exact form for ports below 512.  A port is in the set made from a list if and only if it occurs in the
list and no smaller port comes after it. -/
theorem C88_exact (ports : List Nat) (hp : ∀ p ∈ ports, p < 512) (p : Nat) :
    p ∈ den (convertMap ports) ↔ Survives ports p := by
  obtain ⟨hl, hm⟩ := marked ports
  rw [mem_den, convertMap, bitset_get, Bool.and_eq_true, decide_eq_true_eq]
  have hlen : (ports.foldl mark []).length ≤ 512 := by
    rcases hl with rfl | hl
    · simp
    · rw [hl, lastPort]
      cases h : ports.getLast? with
      | none => simp
      | some q =>
        have := hp q (List.mem_of_getLast? h)
        simp only [Option.getD_some]
        omega
  rw [show (ports.foldl mark []).length - 512 + p = p by omega, hm]
  constructor
  · exact fun h => h.2
  · intro h
    obtain ⟨a, b, rfl, _⟩ := h
    exact ⟨hp p (by simp), ⟨a, b, rfl, ‹_›⟩⟩

/-- **C88**, exact form for all lists: the set only depends on the 512 positions that end with the last port. -/
theorem C88_shift (ports : List Nat) (p : Nat) :
    p ∈ den (convertMap ports) ↔ p < 512 ∧ Survives ports (lastPort ports + 1 - 512 + p) := by
  obtain ⟨hl, hm⟩ := marked ports
  rw [mem_den, convertMap, bitset_get, Bool.and_eq_true, decide_eq_true_eq, hm]
  rcases hl with rfl | hl
  · simp [Survives]
  · rw [hl]

/-- **C88** (partial).  The full claim is: the node has the ports of the list.  It holds for lists in ascending order of
ports below 512.  For other lists see `C88_exact` and the refutations. -/
theorem C88_sorted_partial (ports : List Nat) (hp : ∀ p ∈ ports, p < 512) (hs : ports.Pairwise (· ≤ ·)) :
    den (convertMap ports) = ports.toFinset := by
  ext p
  rw [C88_exact ports hp, List.mem_toFinset]
  constructor
  · rintro ⟨a, b, rfl, _⟩
    simp
  · intro h
    obtain ⟨a, b, rfl⟩ := List.append_of_mem h
    refine ⟨a, b, rfl, fun q hq => ?_⟩
    exact (List.pairwise_cons.1 (List.pairwise_append.1 hs).2.1).1 q hq

/-- **C88**, ports below 512: the claim holds exactly for the lists in which a port that is followed by a smaller one
occurs again later without that. -/
theorem C88_iff (ports : List Nat) (hp : ∀ p ∈ ports, p < 512) :
    den (convertMap ports) = ports.toFinset ↔ ∀ p ∈ ports, Survives ports p := by
  constructor
  · intro h p hm
    rw [← C88_exact ports hp, h]
    simpa using hm
  · intro h
    ext p
    rw [C88_exact ports hp, List.mem_toFinset]
    constructor
    · rintro ⟨a, b, rfl, _⟩
      simp
    · exact h p

/-- The port lists of a call are in ascending order and below 512. -/
def Ordered : Op (List Nat) → Prop
  | .nodeCreate _ ports lags =>
    (∀ l ∈ ports :: lags.toList, (∀ p ∈ l, p < 512) ∧ l.Pairwise (· ≤ ·))
  | .nodeUpdate _ ports lags =>
    (∀ l ∈ ports :: lags.toList, (∀ p ∈ l, p < 512) ∧ l.Pairwise (· ≤ ·))
  | .setLag _ ports => (∀ p ∈ ports, p < 512) ∧ ports.Pairwise (· ≤ ·)
  | _ => True

theorem map_ordered {op : Op (List Nat)} (h : Ordered op) :
    (op.map convertMap).map den = op.map List.toFinset := by
  cases op with
  | nodeCreate rid ports lags =>
    cases lags with
    | none =>
      obtain ⟨a, b⟩ := h ports (by simp)
      simp [Op.map, C88_sorted_partial ports a b]
    | some lags =>
      obtain ⟨a, b⟩ := h ports (by simp)
      obtain ⟨a', b'⟩ := h lags (by simp)
      simp [Op.map, C88_sorted_partial ports a b, C88_sorted_partial lags a' b']
  | nodeUpdate rid ports lags =>
    cases lags with
    | none =>
      obtain ⟨a, b⟩ := h ports (by simp)
      simp [Op.map, C88_sorted_partial ports a b]
    | some lags =>
      obtain ⟨a, b⟩ := h ports (by simp)
      obtain ⟨a', b'⟩ := h lags (by simp)
      simp [Op.map, C88_sorted_partial ports a b, C88_sorted_partial lags a' b']
  | setLag i ports => simp [Op.map, C88_sorted_partial ports h.1 h.2]
  | _ => rfl

/-- A sequence of calls made through PI, with the results. -/
def runPi (s : State) : List (Op (List Nat)) → Option (List (Op (Finset Nat) × Ret) × State)
  | [] => some ([], s)
  | op :: ops => do
    let (r, s') ← exec s (op.map convertMap)
    let (t, s'') ← runPi s' ops
    return ((op.map List.toFinset, r) :: t, s'')

theorem runPi_eq (s : State) (ops : List (Op (List Nat))) (h : ∀ op ∈ ops, Ordered op) :
    runPi s ops = run s (ops.map (Op.map convertMap)) := by
  induction ops generalizing s with
  | nil => rfl
  | cons op ops ih =>
    have ho := map_ordered (h op (by simp))
    simp only [runPi, run, List.map_cons, ho]
    cases exec s (op.map convertMap) with
    | none => rfl
    | some x => simp only [Option.bind_eq_bind, Option.bind_some, ih x.2 fun o hm => h o (by simp [hm])]

/-- **C88** (partial), for whole histories of calls made through PI with such lists: each replication delivers exactly
the copies for the ports listed. -/
theorem C88_replicate_partial (groups l1 l2 : Nat) (ops : List (Op (List Nat))) (h : ∀ op ∈ ops, Ordered op) {t s}
    (hr : runPi (init groups l1 l2) ops = some (t, s)) :
    Delivers {} t ∧ ∀ g, ∃ l, replicate s g = some l ∧ Copies (after {} t) g l := by
  rw [runPi_eq _ _ h] at hr
  obtain ⟨a, b⟩ := C18_replicate groups l1 l2 _ hr
  exact ⟨a, fun g => (b g).imp fun l hl => ⟨hl.1, hl.2.1⟩⟩

/-- The functions of PI are these calls. -/
theorem C88_calls (s : State) (rid n : Nat) (ports : List Nat) :
    exec s ((Op.nodeCreate rid ports none).map convertMap) =
      (nodeCreate s rid ports).map (fun r => (createRet r.1 r.2.1, r.2.2)) ∧
    exec s ((Op.nodeUpdate n ports none).map convertMap) =
      (nodeModify s n ports).map fun r => (r.1.ret, r.2) := ⟨rfl, rfl⟩

namespace Ex

/-- Ports 1, 3 and 3 again. -/
theorem C88_case : den (convertMap [1, 3, 3, 7]) = {1, 3, 7} := by
  rw [C88_sorted_partial _ (by decide) (by decide)]
  decide

/-- A group with a node with ports 2 and 5 delivers to both. -/
theorem C88_replicate_case :
    (runPi (init 8 8 8) [.groupCreate 1, .nodeCreate 9 [2, 5] none, .associate 1 0, .replicate 1]).map
      (fun x => x.1.map Prod.snd) = some [.ok, .node 0, .ok, .copies [(9, 2), (9, 5)]] := by decide +kernel

/-- The full claim fails: of the list 5, 2 only port 2 is used. -/
theorem C88_refuted_order :
    (runPi (init 8 8 8) [.groupCreate 1, .nodeCreate 9 [5, 2] none, .associate 1 0, .replicate 1]).map
      (fun x => x.1.map Prod.snd) = some [.ok, .node 0, .ok, .copies [(9, 2)]] := by decide +kernel

/-- Port 600 becomes port 511. -/
theorem C88_refuted_large : 511 ∈ den (convertMap [600]) ∧ 600 ∉ den (convertMap [600]) := by
  rw [C88_shift, C88_shift]
  exact ⟨⟨by decide, [], [], by decide, by simp⟩, by simp⟩

end Ex

end Bm.PiMc
