import Verif.Spec.SSPrims

/-!
# C55: mirroring sessions
-/

namespace Bm.SSwitch

/-- One request. -/
def SessOp.exec (m : Int → Option Session) : SessOp → Bool × (Int → Option Session)
  | .add id s => addSession m id s
  | .del id => deleteSession m id

/-- Answers and sessions after some requests. -/
def sessRun (m : Int → Option Session) : List SessOp → List Bool × (Int → Option Session)
  | [] => ([], m)
  | op :: ops =>
    let (b, m) := op.exec m
    let (bs, m) := sessRun m ops
    (b :: bs, m)

theorem sess_step (m : Int → Option Session) (op : SessOp) (id : Int) :
    (op.exec m).2 id = (op.says id).getD (m id) := by
  have h15 : (2 : Int) ^ 15 - 1 = 32767 := by decide
  cases op with
  | add i s =>
    simp only [SessOp.exec, addSession, SessOp.says, h15]
    by_cases h : 0 ≤ i ∧ i ≤ 32767
    · rw [if_pos h]
      by_cases hi : i = id
      · subst hi
        rw [if_pos ⟨rfl, h.1, by omega⟩]
        simp
      · rw [if_neg (fun k => hi k.1)]
        simp [Ne.symm hi]
    · rw [if_neg h, if_neg (by rintro ⟨rfl, k1, k2⟩; exact h ⟨k1, by omega⟩)]
      rfl
  | del i =>
    simp only [SessOp.exec, deleteSession, SessOp.says, h15]
    by_cases h : 0 ≤ i ∧ i ≤ 32767
    · rw [if_pos h]
      by_cases hi : i = id
      · subst hi
        rw [if_pos ⟨rfl, h.1, by omega⟩]
        simp
      · rw [if_neg (fun k => hi k.1)]
        simp [Ne.symm hi]
    · rw [if_neg h, if_neg (by rintro ⟨rfl, k1, k2⟩; exact h ⟨k1, by omega⟩)]
      rfl

theorem sessionNow_snoc (id : Int) (ops : List SessOp) (op : SessOp) :
    sessionNow id (ops ++ [op]) = (op.says id).getD (sessionNow id ops) := by
  unfold sessionNow
  rw [List.reverse_append]
  simp only [List.reverse_cons, List.reverse_nil, List.nil_append, List.singleton_append, List.findSome?_cons]
  cases op.says id <;> rfl

theorem sess_run {pre : List SessOp} : ∀ {ops : List SessOp} {m : Int → Option Session},
    (∀ id, m id = sessionNow id pre) → (∀ id, (sessRun m ops).2 id = sessionNow id (pre ++ ops)) ∧
      ∀ a op b, ops = a ++ op :: b → (sessRun m ops).1[a.length]? = some (op.answer (pre ++ a)) := by
  intro ops
  induction ops generalizing pre with
  | nil => intro m h; exact ⟨fun id => by simpa [sessRun] using h id, fun a op b hc => by simp at hc⟩
  | cons op ops ih =>
    intro m h
    have h1 : ∀ id, (op.exec m).2 id = sessionNow id (pre ++ [op]) := by
      intro id; rw [sess_step, sessionNow_snoc, h]
    obtain ⟨k1, k2⟩ := ih h1
    simp only [sessRun]
    refine ⟨fun id => by simpa using k1 id, fun a op' b hc => ?_⟩
    cases a with
    | nil =>
      simp only [List.nil_append, List.cons.injEq] at hc
      rw [← hc.1]
      have h15 : (2 : Int) ^ 15 - 1 = 32767 := by decide
      have hg : ∀ i : Int, goodId i ↔ (0 ≤ i ∧ i ≤ 32767) := fun i => by unfold goodId; omega
      simp only [List.length_nil, List.getElem?_cons_zero, List.append_nil, Option.some.injEq]
      cases op with
      | add i s =>
        simp only [SessOp.exec, addSession, SessOp.answer, h15]
        by_cases hi : 0 ≤ i ∧ i ≤ 32767
        · rw [if_pos hi, decide_eq_true ((hg i).2 hi)]
        · rw [if_neg hi, decide_eq_false (mt (hg i).1 hi)]
      | del i =>
        simp only [SessOp.exec, deleteSession, SessOp.answer, h15]
        by_cases hi : 0 ≤ i ∧ i ≤ 32767
        · rw [if_pos hi, decide_eq_true ((hg i).2 hi), h i, Bool.true_and]
        · rw [if_neg hi, decide_eq_false (mt (hg i).1 hi), Bool.false_and]
    | cons x a =>
      simp only [List.cons_append, List.cons.injEq] at hc
      rw [← hc.1]
      simpa using k2 a op' b hc.2

/-- **C55**.  After any requests to add and delete mirroring sessions, looking up a session gives what the last
request about it said; ids outside 0..32767 never exist; adding succeeds exactly for good ids, deleting exactly if
the session existed. -/
theorem C55 (ops : List SessOp) :
    (∀ id, getSession (sessRun (fun _ => none) ops).2 id = sessionNow id ops) ∧
    (∀ id, ¬ goodId id → getSession (sessRun (fun _ => none) ops).2 id = none) ∧
    ∀ a op b, ops = a ++ op :: b → (sessRun (fun _ => none) ops).1[a.length]? = some (op.answer a) := by
  obtain ⟨h1, h2⟩ := sess_run (pre := []) (ops := ops) (m := fun _ => none) (fun id => rfl)
  simp only [List.nil_append] at h1 h2
  refine ⟨h1, fun id hid => ?_, h2⟩
  rw [getSession, h1]
  unfold sessionNow
  have : ops.reverse.findSome? (SessOp.says id) = none := by
    rw [List.findSome?_eq_none_iff]
    intro op _
    cases op <;> simp [SessOp.says, hid]
  rw [this]
  rfl

/-- Which session a clone goes to: the one with the id given, for ids below 32768.  Asking for a clone is never the
same as not asking, not even for session 0. -/
theorem C55_clone (id : BitVec 16) :
    id ||| sessionValid ≠ 0 ∧ ((id ||| sessionValid) &&& sessionMask).toNat = id.toNat % 32768 := by
  constructor
  · intro h
    have : (id ||| sessionValid).getLsbD 15 = (0 : BitVec 16).getLsbD 15 := by rw [h]
    rw [BitVec.getLsbD_or] at this
    simp [sessionValid] at this
  · have : (id ||| sessionValid) &&& sessionMask = id &&& sessionMask := by
      rw [BitVec.and_comm, BitVec.and_or_distrib_left, BitVec.and_comm]
      have : sessionMask &&& sessionValid = 0 := by decide
      rw [this]
      simp
    rw [this, BitVec.toNat_and]
    have : sessionMask.toNat = 2 ^ 15 - 1 := by decide
    rw [this, Nat.and_two_pow_sub_one_eq_mod]

/-- Ids from 32768 on are those of other sessions. -/
theorem C55_alias : ((32773 ||| sessionValid) &&& sessionMask : BitVec 16).toNat = 5 := by decide

/-- Adding twice, deleting, a bad id. -/
example : (sessRun (fun _ => none) [.add 5 ⟨some 1, none⟩, .add 5 ⟨some 2, none⟩, .add 40000 ⟨some 3, none⟩,
    .add 0 ⟨some 4, none⟩, .del 5, .del 5]).1 = [true, true, false, true, true, false] ∧
    (((sessRun (fun _ => none) [.add 5 ⟨some 1, none⟩, .add 5 ⟨some 2, none⟩]).2 5).map (·.port)) = some (some 2) := by
  decide +kernel

end Bm.SSwitch
