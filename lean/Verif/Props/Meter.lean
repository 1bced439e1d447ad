import Verif.Lemmas.MeterBound
import Mathlib.Data.Rat.Floor
import Mathlib.Tactic.Linarith

/-!
# C21–C24: meters
-/

namespace Bm.Meter

open Spec.Meter

variable {R : Type} {A : RateArith R}

/-- The state after a successful configuration, from any state. -/
theorem setRates_success {m m0 : Meter R} {cs} (h : setRates A m cs = some (.success, m0)) :
    cs.length = m.rates.length ∧ codeOf A none cs = .success ∧
    m0 = { m with rates := (toRates cs 0).reverse, configured := true } := by
  by_cases hl : cs.length = m.rates.length
  · obtain ⟨r, _, e⟩ := setRates_eq (A := A) m cs hl
    rw [h] at e
    simp only [Option.some.injEq, Prod.mk.injEq] at e
    rw [if_pos e.1.symm] at e
    exact ⟨hl, e.1.symm, e.2⟩
  · simp [setRates, hl] at h

theorem getElem_toRates (cs : List (Config R)) (k i : Nat) (c : Config R) (h : cs[k]? = some c) :
    (toRates cs i)[k]? = some (c.toRate (i + k)) := by
  induction cs generalizing k i with
  | nil => simp at h
  | cons d cs ih =>
    cases k with
    | zero =>
      simp only [List.getElem?_cons_zero, Option.some.injEq] at h
      subst h; rfl
    | succ k =>
      simp only [List.getElem?_cons_succ] at h
      rw [toRates, List.getElem?_cons_succ, ih k (i + 1) h]
      congr 2; omega

/-- **C21.** After any successful configuration of a meter in any state, let it see any packets
`pkts1` and then `pkts2`.  If the packets of `pkts2` lie between `t1` and `t2` (microseconds since the
creation of the meter), the units coloured below level `k` among `pkts2` are at most the burst size of
level `k` plus what the rate of level `k` has accrued from `t1` to `t2`. -/
theorem C21_burst_and_rate (hmono : ∀ r, Monotone (A.acc r)) {m m0 m1 m2 : Meter R} {cs}
    (hset : setRates A m cs = some (.success, m0)) {pkts1 pkts2 cols1 cols2}
    (h1 : runPkts A m0 pkts1 = some (cols1, m1)) (h2 : runPkts A m1 pkts2 = some (cols2, m2))
    {t1 t2 : Nat} (ht : ∀ p ∈ pkts2, t1 ≤ (view m p).1 ∧ (view m p).1 ≤ t2)
    {k : Nat} {c : Config R} (hk : cs[k]? = some c) :
    passed (k + 1) (pkts2.map (view m)) cols2
      ≤ c.burst + (A.acc c.infoRate t2 - A.acc c.infoRate t1) := by
  obtain ⟨hlen, _, rfl⟩ := setRates_success hset
  have hkl : k < cs.length := (List.getElem?_eq_some_iff.1 hk).1
  have hget : (toRates cs 0).reverse[cs.length - 1 - k]? = some (c.toRate k) := by
    rw [List.getElem?_reverse (by rw [toRates_length]; omega), toRates_length,
      show cs.length - 1 - (cs.length - 1 - k) = k by omega, getElem_toRates cs k 0 c hk]
    simp
  obtain ⟨hc1, ho1, hp1, ht1, hr1⟩ := runPkts_keeps rfl (ordered_toRates cs) h1
  obtain ⟨r, hr, q1, q2, q3, q4⟩ := hr1 _ _ hget (by simp [Config.toRate])
  have hview : ∀ p, view m1 p = view m p := view_congr hp1 ht1
  have := (runPkts_bound hmono hc1 ho1 h2 t1 t2 (fun p hp => by rw [hview]; exact ht p hp)
    _ r hr q4).1
  have hmap : pkts2.map (view m1) = pkts2.map (view m) := List.map_congr_left fun p _ => hview p
  rw [hmap, q1, q2, q3] at this
  exact this

/-- Exact arithmetic on non-negative rational rates. -/
def ratArith : RateArith { r : ℚ // 0 ≤ r } where
  acc r t := ⌊r.1 * t⌋₊
  gt a b := decide (a.1 > b.1)

theorem ratArith_mono (r : { r : ℚ // 0 ≤ r }) : Monotone (ratArith.acc r) := by
  intro a b h
  refine Nat.floor_mono (mul_le_mul_of_nonneg_left ?_ r.2)
  exact_mod_cast h

/-- **C21** in exact arithmetic: the units coloured below level `k` in an interval exceed burst size
plus rate times duration by less than one unit (the rounding of the accrual to whole units). -/
theorem C21_rational {m m0 m1 m2 : Meter { r : ℚ // 0 ≤ r }} {cs}
    (hset : setRates ratArith m cs = some (.success, m0)) {pkts1 pkts2 cols1 cols2}
    (h1 : runPkts ratArith m0 pkts1 = some (cols1, m1))
    (h2 : runPkts ratArith m1 pkts2 = some (cols2, m2))
    {t1 t2 : Nat} (h12 : t1 ≤ t2) (ht : ∀ p ∈ pkts2, t1 ≤ (view m p).1 ∧ (view m p).1 ≤ t2)
    {k : Nat} {c : Config { r : ℚ // 0 ≤ r }} (hk : cs[k]? = some c) :
    (passed (k + 1) (pkts2.map (view m)) cols2 : ℚ)
      < c.burst + c.infoRate.1 * ((t2 : ℚ) - t1) + 1 := by
  have h := C21_burst_and_rate ratArith_mono hset h1 h2 ht hk
  have hm := ratArith_mono c.infoRate h12
  have hq : (passed (k + 1) (pkts2.map (view m)) cols2 : ℚ)
      ≤ c.burst + ((ratArith.acc c.infoRate t2 : ℚ) - ratArith.acc c.infoRate t1) := by
    have : (passed (k + 1) (pkts2.map (view m)) cols2 : ℚ)
      ≤ ((c.burst + (ratArith.acc c.infoRate t2 - ratArith.acc c.infoRate t1) : Nat) : ℚ) := by
      exact_mod_cast h
    rw [Nat.cast_add, Nat.cast_sub hm] at this
    exact this
  have a1 : (ratArith.acc c.infoRate t2 : ℚ) ≤ c.infoRate.1 * t2 :=
    Nat.floor_le (mul_nonneg c.infoRate.2 (Nat.cast_nonneg _))
  have a2 : c.infoRate.1 * t1 < (ratArith.acc c.infoRate t1 : ℚ) + 1 := Nat.lt_floor_add_one _
  linarith

/-- The levels described by a configuration. -/
def Config.level (A : RateArith R) (c : Config R) : Level := ⟨c.burst, A.acc c.infoRate⟩

theorem colours_aux (hmono : ∀ r, Monotone (A.acc r)) (pkts : List (Nat × Nat × Nat))
    (m : Meter R) (ps : List Seen) (hc : m.configured = true) (ho : Ordered m.rates)
    (ht : ∀ r ∈ m.rates, Track A ps r)
    (hs : pkts.Pairwise fun p q => p.1 ≤ q.1)
    (hi : ∀ p ∈ pkts, m.timeInit ≤ p.1 ∧ latest ps ≤ (view m p).1)
    (hw : ∀ p ∈ pkts, ∀ r ∈ m.rates, r.burst + A.acc r.infoRate (view m p).1 < 2 ^ 64) :
    ∃ cols m', runPkts A m pkts = some (cols, m') ∧
      Colours (levels A m.rates) ps (pkts.map (view m)) cols := by
  induction pkts generalizing m ps with
  | nil => exact ⟨[], m, rfl, trivial⟩
  | cons p pkts ih =>
    obtain ⟨now, len, pre⟩ := p
    have hip := hi (now, len, pre) (by simp)
    obtain ⟨v, rs', e1, e2, e3, e4, e5, e6, e7⟩ := execRates_spec hmono
      (view m (now, len, pre)).1 (view m (now, len, pre)).2.1 ps hip.2 m.rates ho ht
      (hw _ (by simp))
    rw [List.pairwise_cons] at hs
    have hview : ∀ q, view { m with rates := rs' } q = view m q := fun q => rfl
    obtain ⟨cols, m', r1, r2⟩ := ih { m with rates := rs' }
      (⟨(view m (now, len, pre)).1, (view m (now, len, pre)).2.1, v⟩ :: ps) hc e3 e6 hs.2
      (fun q hq => ⟨(hi q (by simp [hq])).1, by
        show (now - m.timeInit) / 1000 ≤ (q.1 - m.timeInit) / 1000
        have : now ≤ q.1 := hs.1 q hq
        omega⟩)
      (fun q hq r hr => by
        obtain ⟨r0, h0, h1, h2⟩ := e7 r hr
        rw [h1, h2]
        exact hw q (by simp [hq]) r0 h0)
    refine ⟨max pre v :: cols, m', ?_, ?_⟩
    · have hexec : execute A m now len pre = some (max pre v, { m with rates := rs' }) := by
        have := hip.1
        simp only [execute, hc, Bool.not_true, Bool.false_eq_true, if_false, Nat.not_lt.2 this]
        simp only [view] at e1
        simp [e1, hc]
      simp [runPkts, hexec, r1]
    · rw [List.map_cons]
      simp only at r2
      rw [e5] at r2
      exact ⟨v, e2, rfl, r2⟩

/-- **C22** for configured meters, partial: after any successful configuration of a meter in any state,
and for any packets in order of time, the meter never fails and returns for each packet the larger of
its incoming colour and the most severe level whose bucket holds too few tokens — where the content of
the buckets is defined from the packets seen so far.  The bucket arithmetic must stay below 2^64.
Missing: unconfigured meters (`C22_unconfigured_improves`) and bucket contents beyond 2^64
(`C22_wrap`), for both of which the claim is false. -/
theorem C22_colours_partial (hmono : ∀ r, Monotone (A.acc r)) {m m0 : Meter R} {cs}
    (hset : setRates A m cs = some (.success, m0)) (pkts : List (Nat × Nat × Nat))
    (hs : pkts.Pairwise fun p q => p.1 ≤ q.1) (hi : ∀ p ∈ pkts, m.timeInit ≤ p.1)
    (hw : ∀ p ∈ pkts, ∀ c ∈ cs, c.burst + A.acc c.infoRate (view m p).1 < 2 ^ 64) :
    ∃ cols m', runPkts A m0 pkts = some (cols, m') ∧
      Colours (cs.map (Config.level A)) [] (pkts.map (view m)) cols := by
  obtain ⟨hlen, _, rfl⟩ := setRates_success hset
  have := colours_aux hmono pkts { m with rates := (toRates cs 0).reverse, configured := true } []
    rfl (ordered_toRates cs) (fun r hr => by
      obtain ⟨a, b, _⟩ := toRates_mem cs 0 r (List.mem_reverse.1 hr)
      refine ⟨by omega, fun t _ => ⟨by omega, ?_⟩⟩
      simp only [avail, Rate.level]
      omega) hs (fun p hp => ⟨hi p hp, Nat.zero_le _⟩)
    (fun p hp r hr => by
      obtain ⟨_, _, hmem⟩ := toRates_mem cs 0 r (List.mem_reverse.1 hr)
      exact hw p hp _ hmem)
  simp only [toRates_levels] at this
  exact this

/-- A configured meter never improves a colour, in any state. -/
theorem C22_never_improves {m m' : Meter R} {now len pre c : Nat} (hc : m.configured = true)
    (he : execute A m now len pre = some (c, m')) : pre ≤ c := by
  obtain ⟨v, _, rfl, _⟩ := execute_rates hc he
  exact Nat.le_max_left _ _

/-- **C22** is false for unconfigured meters: the incoming colour is dropped, whatever it is. -/
theorem C22_unconfigured_improves (m : Meter R) (hc : m.configured = false) (now len pre : Nat) :
    execute A m now len pre = some (0, m) := by simp [execute, hc]

/-- Whole-number rates, for the examples. -/
def natArith : RateArith Nat where
  acc r t := r * t
  gt a b := decide (a > b)

/-- Colours along a run after configuring a fresh meter. -/
def demo (packets : Bool) (cs : List (Config Nat)) (pkts : List (Nat × Nat × Nat)) :
    Option (List Nat) := do
  let (rc, m) ← setRates natArith (fresh 0 packets cs.length 0) cs
  if rc = .success then (runPkts natArith m pkts).map Prod.fst else none

/-- **C22** is false for very large burst sizes: the content of a full bucket wraps around and the
packet is coloured red. -/
theorem C22_wrap : demo false [⟨1, 2 ^ 64 - 1⟩] [(0, 100, 0), (101000, 100, 0)] = some [0, 1] := by
  decide +kernel

/-- A case for C21 and C22: two levels, rates 1 and 2 tokens per microsecond. -/
example : demo false [⟨1, 10⟩, ⟨2, 15⟩]
    [(0, 10, 0), (0, 5, 0), (0, 1, 0), (5000, 5, 0), (5000, 5, 0), (5000, 1, 1)]
    = some [0, 1, 2, 0, 1, 2] := by decide +kernel

/-! ## C23 -/

/-- Calls on a meter. -/
inductive Op (R : Type)
  | set (cs : List (Config R))
  | reset
  | exec (now len pre : Nat)
  | get

/-- Results. -/
inductive Out (R : Type)
  | code (c : Code)
  | done
  | colour (c : Nat)
  | rates (l : List (Config R))
deriving DecidableEq

/-- One call. -/
def exec1 (A : RateArith R) (m : Meter R) : Op R → Option (Out R × Meter R)
  | .set cs => (setRates A m cs).map fun r => (.code r.1, r.2)
  | .reset => some (.done, resetRates m)
  | .exec now len pre => (execute A m now len pre).map fun r => (.colour r.1, r.2)
  | .get => some (.rates (getRates m), m)

/-- A sequence of calls. -/
def runOps (A : RateArith R) (m : Meter R) : List (Op R) → Option (List (Out R))
  | [] => some []
  | op :: ops => do
    let (o, m') ← exec1 A m op
    let os ← runOps A m' ops
    return o :: os

/-- Nothing observable distinguishes the two meters. -/
def Alike (m m' : Meter R) : Prop :=
  m.packets = m'.packets ∧ m.timeInit = m'.timeInit ∧ m.configured = m'.configured ∧
  m.rates.length = m'.rates.length ∧ (m.configured = true → m.rates = m'.rates)

theorem Alike.eq {m m' : Meter R} (h : Alike m m') (hc : m.configured = true) : m = m' := by
  obtain ⟨a, b, c, _, e⟩ := h
  cases m; cases m'; simp_all

theorem Alike.runOps {m m' : Meter R} (h : Alike m m') (ops : List (Op R)) :
    runOps A m ops = Meter.runOps A m' ops := by
  induction ops generalizing m m' with
  | nil => rfl
  | cons op ops ih =>
    by_cases hc : m.configured = true
    · rw [h.eq hc]
    · have hc' : m'.configured = false := by rw [← h.2.2.1]; simpa using hc
      have hc0 : m.configured = false := by simpa using hc
      cases op with
      | reset =>
        have : Alike (resetRates m) (resetRates m') := by
          obtain ⟨a, b, c, d, _⟩ := h
          exact ⟨a, b, rfl, d, by simp [resetRates]⟩
        simp [Meter.runOps, exec1, ih this]
      | exec now len pre =>
        simp [Meter.runOps, exec1, execute, hc0, hc', ih h]
      | get =>
        simp [Meter.runOps, exec1, getRates, hc0, hc', ih h]
      | set cs =>
        by_cases hl : cs.length = m.rates.length
        · obtain ⟨r1, l1, e1⟩ := setRates_eq (A := A) m cs hl
          obtain ⟨r2, l2, e2⟩ := setRates_eq (A := A) m' cs (by rw [hl, h.2.2.2.1])
          simp only [Meter.runOps, exec1, e1, e2, Option.map_some, Option.bind_eq_bind,
            Option.bind_some]
          by_cases hs : codeOf A none cs = .success
          · simp only [hs, if_true]
            have : Alike { m with rates := (toRates cs 0).reverse, configured := true }
                { m' with rates := (toRates cs 0).reverse, configured := true } :=
              ⟨h.1, h.2.1, rfl, rfl, fun _ => rfl⟩
            rw [ih this]
          · simp only [hs, if_false]
            have : Alike { m with rates := r1 } { m' with rates := r2 } :=
              ⟨h.1, h.2.1, h.2.2.1, by simp [l1, l2, h.2.2.2.1], fun hx => absurd hx hc⟩
            rw [ih this]
        · have hl' : ¬ cs.length = m'.rates.length := by rw [← h.2.2.2.1]; exact hl
          simp [Meter.runOps, exec1, setRates, hl, hl', ih h]

/-- **C23**, partial: a rejected configuration has no effect on any later call if the number of rates
was wrong or the meter was not configured.  Missing: rejection because of the order of the rates on
a configured meter, for which the claim is false (`C23_rejected_takes_effect`). -/
theorem C23_rejected_partial {m m' : Meter R} {cs rc} (h : setRates A m cs = some (rc, m'))
    (hrc : rc ≠ .success) (hcase : rc = .badRatesList ∨ m.configured = false) (ops : List (Op R)) :
    runOps A m' ops = runOps A m ops := by
  apply Alike.runOps
  by_cases hl : cs.length = m.rates.length
  · obtain ⟨r, l, e⟩ := setRates_eq (A := A) m cs hl
    rw [h] at e
    simp only [Option.some.injEq, Prod.mk.injEq] at e
    obtain ⟨rfl, e2⟩ := e
    rw [if_neg hrc] at e2
    rcases hcase with h1 | h1
    · exfalso
      have : ∀ (p : Option R) (cs : List (Config R)), codeOf A p cs ≠ .badRatesList := by
        intro p cs
        induction cs generalizing p with
        | nil => simp [codeOf]
        | cons c cs ih =>
          cases p with
          | none => exact ih _
          | some p =>
            simp only [codeOf]
            split
            · simp
            · exact ih _
      exact this _ _ h1
    · subst e2
      exact ⟨rfl, rfl, rfl, l, fun hx => by simp [h1] at hx⟩
  · simp only [setRates, hl, ne_eq, not_false_eq_true, if_true, Option.pure_def, Option.some.injEq,
      Prod.mk.injEq] at h
    obtain ⟨_, rfl⟩ := h
    exact ⟨rfl, rfl, rfl, rfl, fun _ => rfl⟩

/-- For a meter array: if the configuration is rejected because of the number of rates, nothing
changes. -/
theorem C23_array_partial {m : Meter R} {ms ms' : List (Meter R)} {cs}
    (h : arraySetRates A (m :: ms) cs = some (.badRatesList, ms'))
    (hl : ∀ q ∈ ms, q.rates.length = m.rates.length) : ms' = m :: ms := by
  by_cases hlen : cs.length = m.rates.length
  · exfalso
    have aux : ∀ l : List (Meter R), (∀ q ∈ l, cs.length = q.rates.length) →
        ∀ ms', arraySetRates A l cs ≠ some (.badRatesList, ms') := by
      intro l
      induction l with
      | nil => intro _ ms' hh; simp [arraySetRates] at hh
      | cons q l ih =>
        intro hq ms' hh
        obtain ⟨r, _, e⟩ := setRates_eq (A := A) q cs (hq q (by simp))
        simp only [arraySetRates, e, Option.bind_eq_bind, Option.bind_some, Option.pure_def] at hh
        have hnb : ∀ (p : Option R) (cs : List (Config R)), codeOf A p cs ≠ .badRatesList := by
          intro p cs
          induction cs generalizing p with
          | nil => simp [codeOf]
          | cons c cs ih =>
            cases p with
            | none => exact ih _
            | some p =>
              simp only [codeOf]
              split
              · simp
              · exact ih _
        split at hh
        · simp only [Option.bind_eq_some_iff, Option.some.injEq] at hh
          obtain ⟨⟨rc, ms1⟩, h1, h2⟩ := hh
          obtain ⟨rfl, _⟩ := Prod.mk.inj h2
          exact ih (fun x hx => hq x (by simp [hx])) _ h1
        · simp only [Option.some.injEq, Prod.mk.injEq] at hh
          exact hnb _ _ hh.1
    exact aux (m :: ms) (by
      intro q hq
      rcases List.mem_cons.1 hq with rfl | hq
      · exact hlen
      · rw [hlen, hl q hq]) _ h
  · simp only [arraySetRates, setRates, hlen, ne_eq, not_false_eq_true, if_true, Option.pure_def,
      Option.bind_eq_bind, Option.bind_some, reduceCtorEq, if_false, Option.some.injEq,
      Prod.mk.injEq, true_and] at h
    exact h.symm

/-- **C23** is false: a configuration rejected because of the order of its rates changes the colours
of a configured meter (here the same packet is red without, yellow with the rejected call). -/
theorem C23_rejected_takes_effect :
    runOps natArith (fresh 0 false 2 0)
      [.set [⟨1, 10⟩, ⟨2, 15⟩], .exec 0 100 0] = some [.code .success, .colour 2] ∧
    runOps natArith (fresh 0 false 2 0)
      [.set [⟨1, 10⟩, ⟨2, 15⟩], .set [⟨5, 10⟩, ⟨2, 15⟩], .exec 0 100 0]
      = some [.code .success, .code .invalidInfoRate, .colour 1] := by decide +kernel

/-- A case for `C23_rejected_partial`. -/
example :
    runOps natArith (fresh 0 false 2 0)
      [.set [⟨1, 10⟩, ⟨2, 15⟩], .set [⟨5, 10⟩], .exec 0 12 0]
      = some [.code .success, .code .badRatesList, .colour 1] ∧
    runOps natArith (fresh 0 false 2 0)
      [.set [⟨5, 10⟩, ⟨2, 15⟩], .exec 0 12 0]
      = some [.code .invalidInfoRate, .colour 0] := by decide +kernel

/-! ## C24 -/

/-- **C24**, partial: saving a configured meter with a single level and restoring it into another
such meter gives that meter the same configuration with a full bucket, provided the printed rate
reads back exactly; an unconfigured meter is restored as unconfigured.  Missing: two or more levels
(false, `C24_restored_colours_differ`), bucket contents (not saved, `C24_bucket_lost`), rates with
more than six significant digits. -/
theorem C24_single_level_partial (print : R → R) {m m2 : Meter R} {c : Config R}
    (hm : getRates m = [c]) (hc : m.configured = true) (h2 : m2.rates.length = 1)
    (hprint : print c.infoRate = c.infoRate) :
    ∃ m3, deserialize A m2 (serialize print m) = some m3 ∧
      setRates A m2 (getRates m) = some (.success, m3) ∧ getRates m3 = getRates m := by
  have hr : m.rates.map (fun r => (⟨r.infoRate, r.burst⟩ : Config R)) = [c] := by
    simp only [getRates, hc, Bool.not_true, Bool.false_eq_true, if_false] at hm
    have := congrArg List.reverse hm
    simpa using this
  obtain ⟨r, hr1⟩ : ∃ r, m.rates = [r] := by
    rcases m with ⟨_, rs, _, _⟩
    match rs, hr with
    | [r], _ => exact ⟨r, rfl⟩
  rw [hr1] at hr
  simp only [List.map_cons, List.map_nil, List.cons.injEq, and_true] at hr
  obtain ⟨q, hq⟩ : ∃ q, m2.rates = [q] := List.length_eq_one_iff.1 h2
  have hri : r.infoRate = c.infoRate := by rw [← hr]
  have hrb : r.burst = c.burst := by rw [← hr]
  refine ⟨{ m2 with configured := true, rates := [c.toRate 0] }, ?_, ?_, ?_⟩
  · simp [serialize, hc, hr1, deserialize, hq, deserLoop, setRate, Config.toRate, hri, hrb, hprint]
  · simp [hm, setRates, hq, setLoop, setRate]
  · rw [hm]; simp [getRates, Config.toRate]

/-- Restoring an unconfigured meter. -/
theorem C24_unconfigured_partial (print : R → R) {m m2 : Meter R} (hc : m.configured = false) :
    deserialize A m2 (serialize print m) = some { m2 with configured := false } := by
  simp [serialize, hc, deserialize]

/-- Configure, save, restore into a fresh meter, then colour packets. -/
def saveRestore (cs : List (Config Nat)) (before after : List (Nat × Nat × Nat)) :
    Option (List Nat) := do
  let (_, m) ← setRates natArith (fresh 0 false cs.length 0) cs
  let (_, m) ← runPkts natArith m before
  let m2 ← deserialize natArith (fresh 0 false cs.length 0) (serialize id m)
  (runPkts natArith m2 after).map Prod.fst

/-- **C24** is false for two levels: the levels are restored in the wrong order, so a packet that
violates every level becomes yellow instead of red. -/
theorem C24_restored_colours_differ :
    demo false [⟨1, 10⟩, ⟨2, 15⟩] [(0, 100, 0)] = some [2] ∧
    saveRestore [⟨1, 10⟩, ⟨2, 15⟩] [] [(0, 100, 0)] = some [1] := by decide +kernel

/-- **C24** is false for a used bucket even with one level: the restored bucket is full. -/
theorem C24_bucket_lost :
    demo false [⟨1, 10⟩] [(0, 10, 0), (0, 10, 0)] = some [0, 1] ∧
    saveRestore [⟨1, 10⟩] [(0, 10, 0)] [(0, 10, 0)] = some [0] := by decide +kernel

end Bm.Meter
