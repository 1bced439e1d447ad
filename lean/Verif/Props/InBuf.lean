import Verif.Spec.InBuf
import Mathlib.Data.List.Basic

/-!
# C54: the input buffer of simple_switch
-/

namespace Bm.SSwitch

variable {T : Type}

/-- What is asked of the buffer. -/
inductive BufOp (T : Type)
  | offer (t : PacketType) (x : T)
  | take

/-- One request. -/
def InBuf.exec (b : InBuf (PacketType × T)) : BufOp T → BufEv T × InBuf (PacketType × T)
  | .offer t x => (.offer t x (b.push t (t, x)).1, (b.push t (t, x)).2)
  | .take => (.take b.pop.1, b.pop.2)

/-- Many requests. -/
def InBuf.run (b : InBuf (PacketType × T)) : List (BufOp T) → List (BufEv T) × InBuf (PacketType × T)
  | [] => ([], b)
  | op :: ops =>
    let (e, b) := b.exec op
    let (es, b) := b.run ops
    (e :: es, b)

theorem accepted_append (k : Bool) (a b : List (BufEv T)) : accepted k (a ++ b) = accepted k a ++ accepted k b := by
  induction a with
  | nil => rfl
  | cons e a ih =>
    rcases e with ⟨t, x, _ | _ | _⟩ | got
    · simp only [List.cons_append, accepted, ih]; split <;> simp
    · simp only [List.cons_append, accepted, ih]
    · simp only [List.cons_append, accepted, ih]
    · simp only [List.cons_append, accepted, ih]

theorem taken_append (k : Bool) (a b : List (BufEv T)) : taken k (a ++ b) = taken k a ++ taken k b := by
  induction a with
  | nil => rfl
  | cons e a ih =>
    rcases e with ⟨t, x, r⟩ | _ | ⟨t, x⟩
    · simp only [List.cons_append, taken, ih]
    · simp only [List.cons_append, taken, ih]
    · simp only [List.cons_append, taken, ih]; split <;> simp

/-- The queue of a class. -/
def InBuf.q (b : InBuf (PacketType × T)) : Bool → List (PacketType × T)
  | true => b.hi
  | false => b.lo

/-- The capacities. -/
def InBuf.cap (b : InBuf (PacketType × T)) : Bool → Nat
  | true => b.capHi
  | false => b.capLo

/-- The invariant after the events `pre`. -/
structure BInv (cap : Bool → Nat) (pre : List (BufEv T)) (b : InBuf (PacketType × T)) : Prop where
  caps : b.cap = cap
  all : ∀ k, accepted k pre = taken k pre ++ (b.q k).reverse
  tag : ∀ k, ∀ x ∈ b.q k, x.1.prio = k
  le : ∀ k, (b.q k).length ≤ cap k

theorem push_class (b : InBuf (PacketType × T)) (t : PacketType) (x : PacketType × T) :
    (((b.q t.prio).length = b.cap t.prio → (b.push t x).1 ≠ .ok ∧ (b.push t x).2 = b) ∧
     ((b.q t.prio).length ≠ b.cap t.prio → (b.push t x).1 = .ok ∧ (b.push t x).2.cap = b.cap ∧
        ∀ k, (b.push t x).2.q k = if t.prio = k then x :: b.q k else b.q k)) ∧
    ((b.push t x).1 = .full → t = .resubmit ∨ t = .recirculate) ∧
    ((b.push t x).1 = .waits → t = .normal ∨ t = .sentinel) := by
  cases t <;> simp only [InBuf.push, PacketType.prio, InBuf.q, InBuf.cap]
  all_goals
    split
    · rename_i h; simp [h]
    · rename_i h
      refine ⟨⟨fun h' => absurd h' h, fun _ => ⟨rfl, rfl, fun k => ?_⟩⟩, by simp, by simp⟩
      cases k <;> rfl

theorem dropLast_reverse {α : Type} {l : List α} {x : α} (h : l.getLast? = some x) :
    l.reverse = x :: l.dropLast.reverse := by
  have hne : l ≠ [] := by intro h'; rw [h'] at h; cases h
  rw [List.getLast?_eq_some_getLast hne] at h
  cases h
  conv => lhs; rw [← List.dropLast_append_getLast hne]
  simp

theorem exec_spec {cap : Bool → Nat} {pre : List (BufEv T)} {b : InBuf (PacketType × T)} (h : BInv cap pre b)
    (op : BufOp T) : EvOk cap pre (b.exec op).1 ∧ BInv cap (pre ++ [(b.exec op).1]) (b.exec op).2 := by
  have hlen : ∀ k, (accepted k pre).length = (taken k pre).length + (b.q k).length := by
    intro k; rw [h.all k]; simp
  cases op with
  | offer t x =>
    obtain ⟨⟨p1, p2⟩, p3, p4⟩ := push_class b t (t, x)
    refine ⟨⟨?_, p3, p4⟩, ?_⟩
    · rw [hlen, ← h.caps]
      have hle := h.le t.prio
      rw [← h.caps] at hle
      by_cases hf : (b.q t.prio).length = b.cap t.prio
      · exact ⟨fun ho => absurd ho (p1 hf).1, fun hl => by omega⟩
      · exact ⟨fun _ => by omega, fun _ => (p2 hf).1⟩
    · by_cases hf : (b.q t.prio).length = b.cap t.prio
      · obtain ⟨q1, q2⟩ := p1 hf
        simp only [InBuf.exec, q2]
        refine ⟨h.caps, fun k => ?_, h.tag, h.le⟩
        rw [accepted_append, taken_append, h.all k]
        have : accepted k [BufEv.offer t x (b.push t (t, x)).1] = [] := by
          cases hr : (b.push t (t, x)).1 with
          | ok => exact absurd hr q1
          | full => rfl
          | waits => rfl
        rw [this]
        simp [taken]
      · obtain ⟨q1, q2, q3⟩ := p2 hf
        simp only [InBuf.exec, q1]
        refine ⟨q2.trans h.caps, fun k => ?_, fun k y hy => ?_, fun k => ?_⟩
        · rw [accepted_append, taken_append, h.all k, q3]
          simp only [accepted, taken, List.append_nil]
          by_cases hk : t.prio = k
          · simp [hk]
          · simp [hk]
        · rw [q3] at hy
          by_cases hk : t.prio = k
          · rw [if_pos hk] at hy
            rcases List.mem_cons.1 hy with rfl | hy
            · exact hk
            · exact h.tag k y hy
          · rw [if_neg hk] at hy
            exact h.tag k y hy
        · rw [q3]
          by_cases hk : t.prio = k
          · rw [if_pos hk]
            have := h.le k
            subst hk
            rw [h.caps] at hf
            simp only [List.length_cons]
            omega
          · rw [if_neg hk]; exact h.le k
  | take =>
    have hdl : ∀ (l : List (PacketType × T)) n, l.length ≤ n → l.dropLast.length ≤ n := by
      intro l n hl; rw [List.length_dropLast]; omega
    by_cases hh : b.hi.length > 0
    · have e : b.exec .take = (.take b.hi.getLast?, { b with hi := b.hi.dropLast }) := by
        simp [InBuf.exec, InBuf.pop, hh]
      have hne : b.hi ≠ [] := by intro h'; rw [h'] at hh; cases hh
      obtain ⟨x, hx⟩ : ∃ x, b.hi.getLast? = some x := ⟨_, List.getLast?_eq_some_getLast hne⟩
      have htag : x.1.prio = true := h.tag true x (List.mem_of_getLast? hx)
      have hrev := dropLast_reverse hx
      have ha := h.all true
      have hb := h.all false
      simp only [InBuf.q] at ha hb
      rw [e, hx]
      obtain ⟨t, x⟩ := x
      refine ⟨⟨⟨b.hi.dropLast.reverse, ?_⟩, fun hc => ?_⟩, ?_⟩
      · rw [htag, ha, hrev]
      · rw [htag] at hc; cases hc
      · refine ⟨h.caps, fun k => ?_, fun k y hy => ?_, fun k => ?_⟩
        · rw [accepted_append, taken_append]
          simp only [accepted, taken, List.append_nil]
          simp only at htag
          cases k
          · simp [htag, InBuf.q, hb]
          · simp [htag, InBuf.q, ha, hrev]
        · cases k
          · exact h.tag false y hy
          · exact h.tag true y ((List.dropLast_sublist _).subset hy)
        · cases k
          · exact h.le false
          · exact hdl _ _ (h.le true)
    · have hnil : b.hi = [] := by
        rw [← List.length_eq_zero_iff]; omega
      have e : b.exec .take = (.take b.lo.getLast?, { b with lo := b.lo.dropLast }) := by
        simp [InBuf.exec, InBuf.pop, hnil]
      have ha := h.all true
      have hb := h.all false
      simp only [InBuf.q, hnil, List.reverse_nil, List.append_nil] at ha hb
      rw [e]
      cases hl : b.lo.getLast? with
      | none =>
        have hlo : b.lo = [] := by rwa [List.getLast?_eq_none_iff] at hl
        rw [hlo] at hb
        simp only [List.reverse_nil, List.append_nil] at hb
        refine ⟨⟨ha, hb⟩, ⟨h.caps, fun k => ?_, fun k y hy => ?_, fun k => ?_⟩⟩
        · rw [accepted_append, taken_append]
          cases k
          · simp [accepted, taken, InBuf.q, hb, hlo]
          · simp [accepted, taken, InBuf.q, ha, hnil]
        · cases k
          · exact h.tag false y ((List.dropLast_sublist _).subset hy)
          · exact h.tag true y hy
        · cases k
          · exact hdl _ _ (h.le false)
          · exact h.le true
      | some x =>
        have htag : x.1.prio = false := h.tag false x (List.mem_of_getLast? hl)
        have hrev := dropLast_reverse hl
        obtain ⟨t, x⟩ := x
        refine ⟨⟨⟨b.lo.dropLast.reverse, ?_⟩, fun _ => ha⟩, ?_⟩
        · rw [htag, hb, hrev]
        · simp only at htag
          refine ⟨h.caps, fun k => ?_, fun k y hy => ?_, fun k => ?_⟩
          · rw [accepted_append, taken_append]
            simp only [accepted, taken, List.append_nil]
            cases k
            · simp [htag, InBuf.q, hb, hrev]
            · simp [htag, InBuf.q, ha, hnil]
          · cases k
            · exact h.tag false y ((List.dropLast_sublist _).subset hy)
            · exact h.tag true y hy
          · cases k
            · exact hdl _ _ (h.le false)
            · exact h.le true

theorem run_spec {cap : Bool → Nat} (ops : List (BufOp T)) : ∀ {pre : List (BufEv T)} {b : InBuf (PacketType × T)},
    BInv cap pre b → BInv cap (pre ++ (b.run ops).1) (b.run ops).2 ∧
      ∀ a e c, (b.run ops).1 = a ++ e :: c → EvOk cap (pre ++ a) e := by
  induction ops with
  | nil =>
    intro pre b h
    refine ⟨by simpa [InBuf.run] using h, fun a e c hc => ?_⟩
    simp [InBuf.run] at hc
  | cons op ops ih =>
    intro pre b h
    obtain ⟨h1, h2⟩ := exec_spec h op
    obtain ⟨k1, k2⟩ := ih h2
    simp only [InBuf.run]
    refine ⟨by simpa using k1, fun a e c hc => ?_⟩
    cases a with
    | nil =>
      simp only [List.nil_append, List.cons.injEq] at hc
      rw [← hc.1]
      simpa using h1
    | cons e' a =>
      simp only [List.cons_append, List.cons.injEq] at hc
      rw [← hc.1]
      simpa using k2 a e c hc.2

/-- **C54**.  Whatever is asked of the input buffer, from its construction on: of each class, the packets taken are
the first of those accepted, in order, and the difference is never more than the capacity; a packet of the ports is
taken only when no resubmitted or recirculated packet is left; the ingress thread waits exactly when nothing is
left; an offer is accepted exactly when there is room; only resubmitted and recirculated packets are refused. -/
theorem C54 (hi lo : Nat) (ops : List (BufOp T)) :
    let tr := (InBuf.run { capHi := hi, capLo := lo } ops).1
    let cap := fun k : Bool => if k then hi else lo
    (∀ k, taken k tr <+: accepted k tr ∧ (accepted k tr).length ≤ (taken k tr).length + cap k) ∧
    ∀ a e c, tr = a ++ e :: c → EvOk cap a e := by
  have h0 : BInv (fun k : Bool => if k then hi else lo) [] ({ capHi := hi, capLo := lo } : InBuf (PacketType × T)) := by
    refine ⟨?_, fun k => ?_, fun k x hx => ?_, fun k => ?_⟩
    · funext k; cases k <;> rfl
    · cases k <;> rfl
    · cases k <;> cases hx
    · cases k <;> exact Nat.zero_le _
  obtain ⟨h1, h2⟩ := run_spec ops h0
  simp only [List.nil_append] at h1 h2
  refine ⟨fun k => ⟨⟨_, (h1.all k).symm⟩, ?_⟩, h2⟩
  rw [h1.all k, List.length_append, List.length_reverse]
  exact Nat.add_le_add_left (h1.le k) _

/-- Two packets from ports, a third waits, a resubmitted packet overtakes them, a second is refused. -/
example : ((InBuf.run (T := Nat) { capHi := 1, capLo := 2 }
    [.offer .normal 1, .offer .normal 2, .offer .normal 3, .offer .resubmit 4, .offer .recirculate 5, .take, .take,
     .take, .take]).1.map fun
      | .offer _ x .ok => (0, x)
      | .offer _ x .full => (1, x)
      | .offer _ x .waits => (2, x)
      | .take (some x) => (3, x.2)
      | .take none => (4, 0)) =
    [(0, 1), (0, 2), (2, 3), (0, 4), (1, 5), (3, 4), (3, 1), (3, 2), (4, 0)] := by decide +kernel

end Bm.SSwitch
