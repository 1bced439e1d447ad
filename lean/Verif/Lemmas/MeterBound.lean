import Verif.Lemmas.Meter

/-!
# What a meter lets pass
-/

namespace Bm.Meter

open Spec.Meter

variable {R : Type} {A : RateArith R}

/-- Execute a meter on packets `(time in ns, length, incoming colour)`. -/
def runPkts (A : RateArith R) (m : Meter R) : List (Nat × Nat × Nat) → Option (List Nat × Meter R)
  | [] => some ([], m)
  | (now, len, pre) :: pkts => do
    let (c, m') ← execute A m now len pre
    let (cs, m'') ← runPkts A m' pkts
    return (c :: cs, m'')

/-- What the meter sees of a packet: microseconds since its creation, units, incoming colour. -/
def view (m : Meter R) (p : Nat × Nat × Nat) : Nat × Nat × Nat :=
  ((p.1 - m.timeInit) / 1000, if m.packets then 1 else p.2.1, p.2.2)

/-- What a step does to one rate. -/
def StepRate (A : RateArith R) (micros input v : Nat) (r r' : Rate R) : Prop :=
  r'.color = r.color ∧ r'.burst = r.burst ∧ r'.infoRate = r.infoRate ∧
  ((v < r.color ∧ r.last ≤ A.acc r.infoRate micros ∧ r'.last = A.acc r.infoRate micros ∧
      r'.tokens + input ≤ r.tokens + (A.acc r.infoRate micros - r.last) ∧
      r'.tokens + input ≤ r.burst) ∨
   (r.color ≤ v ∧ (r' = r ∨
     (r.last ≤ A.acc r.infoRate micros ∧ r'.last = A.acc r.infoRate micros ∧
      r'.tokens ≤ r.tokens + (A.acc r.infoRate micros - r.last) ∧ r'.tokens ≤ r.burst))))

theorem execRates_at (micros input : Nat) (rs : List (Rate R)) (ho : Ordered rs) {v rs'}
    (he : execRates A micros input rs = some (v, rs')) :
    Ordered rs' ∧ rs'.length = rs.length ∧ v ≤ rs.length ∧
    ∀ (i : Nat) (r : Rate R), rs[i]? = some r → ∃ r', rs'[i]? = some r' ∧ StepRate A micros input v r r' := by
  induction rs generalizing v rs' with
  | nil =>
    simp only [execRates, Option.some.injEq, Prod.mk.injEq] at he
    obtain ⟨rfl, rfl⟩ := he
    exact ⟨trivial, rfl, Nat.le_refl _, by simp⟩
  | cons r rs ih =>
    unfold execRates at he
    simp only [] at he
    split at he
    · cases he
    split at he
    · cases he
    rename_i h1 h2
    have hmod : min ((r.tokens + (A.acc r.infoRate micros - r.last)) % 2 ^ 64) r.burst
        ≤ r.tokens + (A.acc r.infoRate micros - r.last) :=
      Nat.le_trans (Nat.min_le_left _ _) (Nat.mod_le _ _)
    have hmb : min ((r.tokens + (A.acc r.infoRate micros - r.last)) % 2 ^ 64) r.burst
        ≤ r.burst := Nat.min_le_right _ _
    generalize min ((r.tokens + (A.acc r.infoRate micros - r.last)) % 2 ^ 64) r.burst = tok
      at he hmod hmb
    split at he
    · simp only [Option.some.injEq, Prod.mk.injEq] at he
      obtain ⟨rfl, rfl⟩ := he
      refine ⟨ho, by simp, by simp [ho.1], ?_⟩
      intro i q hq
      cases i with
      | zero =>
        simp only [List.getElem?_cons_zero, Option.some.injEq] at hq
        subst hq
        refine ⟨_, rfl, rfl, rfl, rfl, Or.inr ⟨Nat.le_refl _, Or.inr ⟨by omega, rfl, hmod, hmb⟩⟩⟩
      | succ i =>
        simp only [List.getElem?_cons_succ] at hq
        refine ⟨q, by simpa using hq, rfl, rfl, rfl, Or.inr ⟨?_, Or.inl rfl⟩⟩
        have := ho.2.le q (List.mem_of_getElem? hq)
        have := ho.1
        omega
    · rename_i h3
      simp only [Option.bind_eq_bind, Option.bind_eq_some_iff, Option.pure_def,
        Option.some.injEq] at he
      obtain ⟨⟨v', rs1⟩, he1, heq⟩ := he
      obtain ⟨rfl, rfl⟩ := Prod.mk.inj heq
      obtain ⟨a, b, c, d⟩ := ih ho.2 he1
      refine ⟨⟨by simpa [b] using ho.1, a⟩, by simp [b], by simp; omega, ?_⟩
      intro i q hq
      cases i with
      | zero =>
        simp only [List.getElem?_cons_zero, Option.some.injEq] at hq
        subst hq
        refine ⟨_, rfl, rfl, rfl, rfl, Or.inl ⟨by rw [ho.1]; omega, by omega, rfl, ?_, ?_⟩⟩
        · simp only; omega
        · simp only; omega
      | succ i =>
        simp only [List.getElem?_cons_succ] at hq
        exact d i q hq

theorem execute_rates {m m' : Meter R} {now len pre c : Nat} (hc : m.configured = true)
    (he : execute A m now len pre = some (c, m')) :
    ∃ v, execRates A (view m (now, len, pre)).1 (view m (now, len, pre)).2.1 m.rates
        = some (v, m'.rates) ∧ c = max pre v ∧ m'.configured = true ∧ m'.packets = m.packets ∧
      m'.timeInit = m.timeInit := by
  unfold execute at he
  simp only [hc, Bool.not_true, Bool.false_eq_true, if_false] at he
  split at he
  · cases he
  simp only [Option.bind_eq_bind, Option.bind_eq_some_iff, Option.pure_def,
    Option.some.injEq] at he
  obtain ⟨⟨v, rs⟩, he1, heq⟩ := he
  obtain ⟨rfl, rfl⟩ := Prod.mk.inj heq
  exact ⟨v, he1, rfl, rfl, rfl, rfl⟩

theorem view_congr {m m' : Meter R} (h1 : m'.packets = m.packets) (h2 : m'.timeInit = m.timeInit)
    (p : Nat × Nat × Nat) : view m' p = view m p := by simp [view, h1, h2]

/-- A run keeps the description of every rate. -/
theorem runPkts_keeps {m m' : Meter R} {pkts cols} (hc : m.configured = true)
    (ho : Ordered m.rates) (he : runPkts A m pkts = some (cols, m')) :
    m'.configured = true ∧ Ordered m'.rates ∧ m'.packets = m.packets ∧ m'.timeInit = m.timeInit ∧
    ∀ (i : Nat) (r : Rate R), m.rates[i]? = some r → r.tokens ≤ r.burst → ∃ r', m'.rates[i]? = some r' ∧
      r'.color = r.color ∧ r'.burst = r.burst ∧ r'.infoRate = r.infoRate ∧ r'.tokens ≤ r'.burst := by
  induction pkts generalizing m cols with
  | nil =>
    simp only [runPkts, Option.some.injEq, Prod.mk.injEq] at he
    obtain ⟨rfl, rfl⟩ := he
    exact ⟨hc, ho, rfl, rfl, fun i r hr ht => ⟨r, hr, rfl, rfl, rfl, ht⟩⟩
  | cons p pkts ih =>
    obtain ⟨now, len, pre⟩ := p
    simp only [runPkts, Option.bind_eq_bind, Option.bind_eq_some_iff, Option.pure_def,
      Option.some.injEq] at he
    obtain ⟨⟨c, m1⟩, he1, ⟨cs, m2⟩, he2, heq⟩ := he
    obtain ⟨rfl, rfl⟩ := Prod.mk.inj heq
    obtain ⟨v, hv, _, hc1, hp1, ht1⟩ := execute_rates hc he1
    obtain ⟨ho1, _, _, hstep⟩ := execRates_at _ _ _ ho hv
    obtain ⟨a, b, d, e, f⟩ := ih hc1 ho1 he2
    refine ⟨a, b, by rw [d, hp1], by rw [e, ht1], ?_⟩
    intro i r hr ht
    obtain ⟨r1, hr1, s1, s2, s3, s4⟩ := hstep i r hr
    have : r1.tokens ≤ r1.burst := by
      rcases s4 with ⟨_, _, _, _, h⟩ | ⟨_, h | ⟨_, _, _, h⟩⟩
      · omega
      · rw [h]; exact ht
      · omega
    obtain ⟨r2, hr2, q1, q2, q3, q4⟩ := f i r1 hr1 this
    exact ⟨r2, hr2, by rw [q1, s1], by rw [q2, s2], by rw [q3, s3], q4⟩

theorem runPkts_bound (hmono : ∀ r, Monotone (A.acc r)) {m m' : Meter R} {pkts cols}
    (hc : m.configured = true) (ho : Ordered m.rates) (he : runPkts A m pkts = some (cols, m'))
    (t1 t2 : Nat) (ht : ∀ p ∈ pkts, t1 ≤ (view m p).1 ∧ (view m p).1 ≤ t2)
    (i : Nat) (r : Rate R) (hr : m.rates[i]? = some r) (hb : r.tokens ≤ r.burst) :
    passed r.color (pkts.map (view m)) cols ≤ r.burst + (A.acc r.infoRate t2 - A.acc r.infoRate t1) ∧
    passed r.color (pkts.map (view m)) cols ≤ r.tokens + (A.acc r.infoRate t2 - r.last) := by
  induction pkts generalizing m cols r with
  | nil => simp [passed]
  | cons p pkts ih =>
    obtain ⟨now, len, pre⟩ := p
    simp only [runPkts, Option.bind_eq_bind, Option.bind_eq_some_iff, Option.pure_def,
      Option.some.injEq] at he
    obtain ⟨⟨c, m1⟩, he1, ⟨cs, m2⟩, he2, heq⟩ := he
    obtain ⟨rfl, rfl⟩ := Prod.mk.inj heq
    obtain ⟨v, hv, hcv, hc1, hp1, ht1⟩ := execute_rates hc he1
    obtain ⟨ho1, _, _, hstep⟩ := execRates_at _ _ _ ho hv
    obtain ⟨r1, hr1, s1, s2, s3, s4⟩ := hstep i r hr
    have hview : ∀ p, view m1 p = view m p := view_congr hp1 ht1
    have hb1 : r1.tokens ≤ r1.burst := by
      rcases s4 with ⟨_, _, _, _, h⟩ | ⟨_, h | ⟨_, _, _, h⟩⟩
      · omega
      · rw [h]; exact hb
      · omega
    have hih := ih hc1 ho1 he2 (fun p hp => by rw [hview]; exact ht p (by simp [hp])) r1 hr1 hb1
    have hmap : pkts.map (view m1) = pkts.map (view m) := List.map_congr_left fun p _ => hview p
    rw [hmap, s1, s2, s3] at hih
    have htp := ht (now, len, pre) (by simp)
    have m1' : A.acc r.infoRate t1 ≤ A.acc r.infoRate (view m (now, len, pre)).1 := hmono _ htp.1
    have m2' : A.acc r.infoRate (view m (now, len, pre)).1 ≤ A.acc r.infoRate t2 := hmono _ htp.2
    rw [List.map_cons]
    have hpass : passed r.color (view m (now, len, pre) :: pkts.map (view m)) (c :: cs)
        = (if c < r.color then (view m (now, len, pre)).2.1 else 0)
          + passed r.color (pkts.map (view m)) cs := rfl
    rw [hpass]
    generalize passed r.color (pkts.map (view m)) cs = P at hih ⊢
    generalize (view m (now, len, pre)).2.1 = inp at *
    have hcle : v ≤ c := by omega
    rcases s4 with ⟨h1, h2, h3, h4, h5⟩ | ⟨h1, h | ⟨h2, h3, h4, h5⟩⟩
    · rw [h3] at hih
      have : (if c < r.color then inp else 0) ≤ inp := by split <;> omega
      generalize (if c < r.color then inp else 0) = w at *
      omega
    · subst h
      rw [if_neg (by omega)]
      omega
    · rw [h3] at hih
      rw [if_neg (by omega)]
      omega

end Bm.Meter
