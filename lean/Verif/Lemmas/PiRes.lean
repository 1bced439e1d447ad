import Verif.Spec.PiRes
import Verif.Lemmas.Dbl
import Verif.Lemmas.MatchUnit

/-!
# Idle timeouts, direct counters and direct meters through PI: lemmas
-/

namespace Bm.Dbl

/-- Rounding depends on the quotient only. -/
theorem rnd_scale (q d : Nat) (hd : 0 < d) : rnd (q * d) d = rnd q 1 := by
  unfold rnd
  rw [Nat.mul_div_cancel _ hd, Nat.div_one, Nat.one_mul]
  congr 1
  unfold rne
  rw [Nat.mul_comm q d, Nat.mul_mod_mul_left, Nat.mul_div_mul_left _ _ hd]
  have e : 2 * (d * (q % ulp q)) = d * (2 * (q % ulp q)) := by ring
  rw [e]
  simp only [Nat.mul_lt_mul_left hd]

theorem div_exact {k m : Nat} (hm : 0 < m) (h : k * m < 2 ^ 53) :
    div (ofNat (k * m)) (ofNat m) = k * one := by
  have hk : k < 2 ^ 53 := Nat.lt_of_le_of_lt (Nat.le_mul_of_pos_right k hm) h
  rcases Nat.eq_zero_or_pos k with rfl | hkp
  · rw [Nat.zero_mul, Nat.zero_mul, ofNat_exact (by decide)]
    simp [div, rnd, rne]
  · have hm' : m < 2 ^ 53 := Nat.lt_of_le_of_lt (Nat.le_mul_of_pos_left m hkp) h
    rw [ofNat_exact h, ofNat_exact hm']
    unfold div
    have e : k * m * one * one = k * one * (m * one) := by ring
    rw [e, rnd_scale _ _ (Nat.mul_pos hm one_pos)]
    exact ofNat_exact hk

theorem mul_exact {k m : Nat} (hm' : m < 2 ^ 53) (h : k * m < 2 ^ 53) :
    mul (k * one) (ofNat m) = k * m * one := by
  rw [ofNat_exact hm']
  unfold mul
  have e : k * one * (m * one) = k * m * one * one := by ring
  rw [e, rnd_scale _ _ one_pos]
  exact ofNat_exact h

end Bm.Dbl

namespace Bm.PiRes
open Bm.PiRes.Spec Bm.Spec

theorem rate_exact {k : Nat} (h : k * 1000000 < 2 ^ 53) : rateBack (rateOf (k * 1000000)) = k * 1000000 := by
  unfold rateBack rateOf
  rw [Dbl.div_exact (by decide) h, Dbl.mul_exact (by decide) h, Dbl.trunc, Nat.mul_div_cancel _ Dbl.one_pos]

set_option exponentiation.threshold 2000 in
theorem one_large : 2 ^ 52 * 1000000 ≤ Dbl.one := by
  unfold Dbl.one
  have : (2 : Nat) ^ 72 ≤ 2 ^ 1074 := Nat.pow_le_pow_right (by decide) (by decide)
  refine le_trans ?_ this
  decide

theorem two_errors {R X y T : Nat} (c1 : 2 ^ 53 * R ≤ 2 ^ 53 * X + R) (c2 : 2 ^ 53 * X ≤ 2 ^ 53 * R + R)
    (d1 : 2 ^ 53 * X ≤ 2 ^ 53 * y + X) (d2 : 2 ^ 53 * y ≤ 2 ^ 53 * X + X) (h : R ≤ 2 ^ 51 * T)
    (hT : 0 < T) : y < R + T ∧ R < y + T := by
  omega

set_option exponentiation.threshold 2000 in
/-- A rate comes back as it was or one below. -/
theorem rate_back {r : Nat} (h : r ≤ 2 ^ 51) :
    rateBack (rateOf r) ≤ r ∧ r ≤ rateBack (rateOf r) + 1 := by
  rcases Nat.eq_zero_or_pos r with rfl | hr
  · have := rate_exact (k := 0) (by decide)
    rw [Nat.zero_mul] at this
    omega
  have h53 : r < 2 ^ 53 := Nat.lt_of_le_of_lt h (by decide)
  have hone := Dbl.one_pos
  have hlarge := one_large
  unfold rateBack rateOf
  rw [Dbl.ofNat_exact h53, Dbl.ofNat_exact (show 1000000 < 2 ^ 53 by decide)]
  -- quotient
  have hq1 : r * Dbl.one * Dbl.one / (1000000 * Dbl.one) = r * Dbl.one / 1000000 :=
    Nat.mul_div_mul_right _ _ hone
  have hge : 2 ^ 52 ≤ r * Dbl.one / 1000000 := by
    rw [Nat.le_div_iff_mul_le (by decide)]
    exact le_trans hlarge (Nat.le_mul_of_pos_left _ hr)
  obtain ⟨a1, a2⟩ := Dbl.rnd_err (n := r * Dbl.one * Dbl.one) (d := 1000000 * Dbl.one)
    (Nat.mul_pos (by decide) hone) (by rw [hq1]; exact hge)
  have hx : Dbl.div (r * Dbl.one) (1000000 * Dbl.one)
    = Dbl.rnd (r * Dbl.one * Dbl.one) (1000000 * Dbl.one) := rfl
  rw [← hx] at a1 a2
  have hxge : 2 ^ 52 ≤ Dbl.div (r * Dbl.one) (1000000 * Dbl.one) := by
    rw [hx]
    have := Dbl.pow_le_rnd (n := r * Dbl.one * Dbl.one) (d := 1000000 * Dbl.one)
      (Nat.mul_pos (by decide) hone) (by rw [hq1]; exact hge)
    refine le_trans (Nat.pow_le_pow_right (by decide) ?_) this
    rw [hq1, Nat.le_log2 (by omega)]; exact hge
  generalize Dbl.div (r * Dbl.one) (1000000 * Dbl.one) = x at *
  -- product
  have hq2 : x * (1000000 * Dbl.one) / Dbl.one = x * 1000000 := by
    rw [← Nat.mul_assoc, Nat.mul_div_cancel _ hone]
  obtain ⟨b1, b2⟩ := Dbl.rnd_err (n := x * (1000000 * Dbl.one)) (d := Dbl.one) hone
    (by rw [hq2]; omega)
  have hy : Dbl.mul x (1000000 * Dbl.one) = Dbl.rnd (x * (1000000 * Dbl.one)) Dbl.one := rfl
  rw [← hy] at b1 b2
  generalize Dbl.mul x (1000000 * Dbl.one) = y at *
  have c1 : 2 ^ 53 * (r * Dbl.one) ≤ 2 ^ 53 * (x * 1000000) + r * Dbl.one := by
    refine Nat.le_of_mul_le_mul_right ?_ hone
    linarith
  have c2 : 2 ^ 53 * (x * 1000000) ≤ 2 ^ 53 * (r * Dbl.one) + r * Dbl.one := by
    refine Nat.le_of_mul_le_mul_right ?_ hone
    linarith
  have d1 : 2 ^ 53 * (x * 1000000) ≤ 2 ^ 53 * y + x * 1000000 := by
    refine Nat.le_of_mul_le_mul_right ?_ hone
    linarith
  have d2 : 2 ^ 53 * y ≤ 2 ^ 53 * (x * 1000000) + x * 1000000 := by
    refine Nat.le_of_mul_le_mul_right ?_ hone
    linarith
  have hrt : r * Dbl.one ≤ 2 ^ 51 * Dbl.one := Nat.mul_le_mul_right _ h
  obtain ⟨hup', hlo⟩ := two_errors c1 c2 d1 d2 hrt hone
  have hup : y < (r + 1) * Dbl.one := by rw [Nat.add_mul, Nat.one_mul]; exact hup'
  unfold Dbl.trunc
  constructor
  · have : y / Dbl.one < r + 1 := (Nat.div_lt_iff_lt_mul hone).2 hup
    omega
  · have : r - 1 ≤ y / Dbl.one := by
      rw [Nat.le_div_iff_mul_le hone, Nat.sub_mul, Nat.one_mul]
      exact Nat.sub_le_of_le_add (Nat.le_of_lt hlo)
    omega

theorem rateOf_mono {a b : Nat} (h : a ≤ b) : rateOf a ≤ rateOf b :=
  Dbl.div_mono (by rw [Dbl.ofNat_exact (by decide)]; exact Nat.mul_pos (by decide) Dbl.one_pos)
    (Dbl.ofNat_mono h)

/-- Two rates in order are accepted by a meter with two rates, and kept. -/
theorem applyRates_two {m : Mtr} (hm : m.rates.length = 2) {a b : Meter.Config Nat}
    (hab : a.infoRate ≤ b.infoRate) :
    ∃ m', applyRates [a, b] m = (m', true) ∧ m'.rates.length = 2 ∧ Meter.getRates m' = [a, b] := by
  obtain ⟨pk, rates, cf, ti⟩ := m
  match rates, hm with
  | [x, y], _ =>
    refine ⟨⟨pk, [b.toRate 1, a.toRate 0], true, ti⟩, ?_, rfl, ?_⟩
    · have hn : ¬ b.infoRate < a.infoRate := Nat.not_lt.2 hab
      simp [applyRates, Meter.setRates, Meter.setLoop, Meter.setRate, Meter.Config.toRate, arith, hn]
    · simp [Meter.getRates, Meter.Config.toRate]

theorem fromSpec_proper {s : MeterSpec} (h : s ≠ MeterSpec.default) :
    fromSpec s = [⟨rateOf s.cir, s.cburst⟩, ⟨rateOf s.pir, s.pburst⟩] := if_neg h

/-- The update of the meter that PI asks for. -/
theorem meter_update {m : Mtr} (hm : m.rates.length = 2) {s : MeterSpec} (hs : Proper s) :
    ∃ m', (if (fromSpec s).isEmpty then fun m => (Meter.resetRates m, true) else applyRates (fromSpec s)) m
        = (m', true) ∧ m'.rates.length = 2 ∧
      ∃ got, toSpec (Meter.getRates m') = some got ∧ Shows s got ∧
        (s = MeterSpec.default → got = MeterSpec.default) := by
  by_cases hd : s = MeterSpec.default
  · refine ⟨Meter.resetRates m, ?_, hm, MeterSpec.default, ?_, ?_, fun _ => rfl⟩
    · simp [fromSpec, hd]
    · simp [Meter.getRates, Meter.resetRates, toSpec]
    · rw [hd]; exact ⟨Or.inl rfl, Or.inl rfl, rfl, rfl⟩
  · rcases hs with hs | ⟨h1, h2, h3, h4⟩
    · exact absurd hs hd
    · rw [fromSpec_proper hd]
      obtain ⟨m', e1, e2, e3⟩ := applyRates_two hm (a := ⟨rateOf s.cir, s.cburst⟩)
        (b := ⟨rateOf s.pir, s.pburst⟩) (rateOf_mono h1)
      refine ⟨m', by simpa using e1, e2, _, by rw [e3]; rfl, ?_, fun h => absurd h hd⟩
      have a := rate_back (le_trans h1 h2)
      have b := rate_back h2
      refine ⟨?_, ?_, Nat.mod_eq_of_lt h3, Nat.mod_eq_of_lt h4⟩
      · show rateBack (rateOf s.cir) = s.cir ∨ rateBack (rateOf s.cir) + 1 = s.cir
        omega
      · show rateBack (rateOf s.pir) = s.pir ∨ rateBack (rateOf s.pir) + 1 = s.pir
        omega

variable {K : Type} {L : LookupStr K} {V : Type}

/-- The handle is that of an entry. -/
structure Live (t : Tbl L V) (h : Nat) : Prop where
  valid : t.mu.handles.validHandle (handleInternal h) = some true
  lt : handleInternal h < t.mu.size

theorem Live.ofRep {sp : MatchSpec K} {W : Laws L sp} {t : Tbl L V} {E : Nat → Option (K × V)} {h : Nat}
    {kv : K × V} (hr : MRep W t.mu E) (hh : t.mu.tab E h = some kv) : Live t h := by
  obtain ⟨hE, -⟩ := hr.tab_some hh
  exact ⟨by have := hr.validHandle h; rw [hE] at this; exact this, hr.lt hE⟩

theorem writeCounters_live {t : Tbl L V} {h : Nat} (hl : Live t h) (hc : t.counters = true) (b p : Nat) :
    mtWriteCounters t h b p = some (.success, { t with mu := { t.mu with
      metas := setAt t.mu.metas (handleInternal h)
        { t.mu.metas (handleInternal h) with bytes := b, packets := p } } }) := by
  simp [mtWriteCounters, hc, MUnit.writeCounters, MUnit.validHandle, hl.valid, hl.lt, stOf]

theorem setTtl_live {t : Tbl L V} {h : Nat} (hl : Live t h) (hc : t.ageing = true) (ttl now : Nat) :
    mtSetTtl t h ttl now = some (.success, { t with mu := { t.mu with
      metas := setAt t.mu.metas (handleInternal h)
        { t.mu.metas (handleInternal h) with timeoutMs := ttl, ts := now } } }) := by
  simp [mtSetTtl, hc, MUnit.setEntryTtl, hl.valid, hl.lt, stOf]

theorem setRates_live {t : Tbl L V} {h : Nat} (hl : Live t h) (hc : t.meters = true) {s : MeterSpec}
    {m' : Mtr} (hm : (if (fromSpec s).isEmpty then fun m => (Meter.resetRates m, true)
      else applyRates (fromSpec s)) (t.mu.meters (handleInternal h)) = (m', true)) :
    mtSetRates t h (fromSpec s) = some (.success, { t with mu := { t.mu with
      meters := setAt t.mu.meters (handleInternal h) m' } }) := by
  simp only [mtSetRates, hc, if_true, MUnit.meterOp, MUnit.validHandle, hl.valid, Option.bind_eq_bind,
    Option.bind_some, Bool.not_true, Bool.false_eq_true, if_false, hl.lt, hm]
  rfl

theorem readCounters_live {t : Tbl L V} {h : Nat} (hl : Live t h) (hc : t.counters = true)
    (hd : h ≠ defaultHandle) : counterRead t h = some (.success,
      some (toCounter (t.mu.metas (handleInternal h)).bytes (t.mu.metas (handleInternal h)).packets)) := by
  simp [counterRead, hd, mtReadCounters, hc, MUnit.queryCounters, MUnit.validHandle, hl.valid, hl.lt, stOf]

theorem readMeter_live {t : Tbl L V} {h : Nat} (hl : Live t h) (hc : t.meters = true)
    (hd : h ≠ defaultHandle) {got : MeterSpec}
    (hg : toSpec (Meter.getRates (t.mu.meters (handleInternal h))) = some got) :
    meterRead t h = some (.success, some got) := by
  simp [meterRead, hd, mtGetRates, hc, MUnit.queryMeter, MUnit.validHandle, hl.valid, hl.lt, stOf, hg]

/-- `t'` differs from `t` at most in the resources of slot `i`. -/
structure Same (t t' : Tbl L V) (i : Nat) : Prop where
  size : t'.mu.size = t.mu.size
  num : t'.mu.numEntries = t.mu.numEntries
  handles : t'.mu.handles = t.mu.handles
  entries : t'.mu.entries = t.mu.entries
  lstr : t'.mu.lstr = t.mu.lstr
  version : ∀ j, (t'.mu.metas j).version = (t.mu.metas j).version
  metas : ∀ j ≠ i, t'.mu.metas j = t.mu.metas j
  meters : ∀ j ≠ i, t'.mu.meters j = t.mu.meters j
  fa : t'.ageing = t.ageing
  fc : t'.counters = t.counters
  fm : t'.meters = t.meters

theorem Same.refl (t : Tbl L V) (i : Nat) : Same t t i :=
  ⟨rfl, rfl, rfl, rfl, rfl, fun _ => rfl, fun _ _ => rfl, fun _ _ => rfl, rfl, rfl, rfl⟩

theorem Same.trans {t t' t'' : Tbl L V} {i : Nat} (a : Same t t' i) (b : Same t' t'' i) : Same t t'' i :=
  ⟨b.size.trans a.size, b.num.trans a.num, b.handles.trans a.handles, b.entries.trans a.entries,
    b.lstr.trans a.lstr, fun j => (b.version j).trans (a.version j),
    fun j h => (b.metas j h).trans (a.metas j h), fun j h => (b.meters j h).trans (a.meters j h),
    b.fa.trans a.fa, b.fc.trans a.fc, b.fm.trans a.fm⟩

theorem Same.live {t t' : Tbl L V} {i h : Nat} (a : Same t t' i) (hl : Live t h) : Live t' h :=
  ⟨by rw [a.handles]; exact hl.valid, by rw [a.size]; exact hl.lt⟩

theorem Same.rep {sp : MatchSpec K} {W : Laws L sp} {t t' : Tbl L V} {i : Nat}
    {E : Nat → Option (K × V)} (a : Same t t' i) (hr : MRep W t.mu E) : MRep W t'.mu E :=
  hr.of_eq _ a.size a.num a.handles a.entries (by rw [a.lstr]; exact hr.ls) a.version

theorem Same.tab {t t' : Tbl L V} {i : Nat} (a : Same t t' i) (E : Nat → Option (K × V)) (h : Nat) :
    t'.mu.tab E h = t.mu.tab E h := by
  simp only [MUnit.tab, a.entries]

theorem Same.counterRead {t t' : Tbl L V} {i h : Nat} (a : Same t t' i) (hi : handleInternal h ≠ i) :
    counterRead t' h = counterRead t h := by
  simp only [PiRes.counterRead, mtReadCounters, MUnit.queryCounters, MUnit.validHandle, a.fc, a.handles,
    a.size, a.metas _ hi]

theorem Same.meterRead {t t' : Tbl L V} {i h : Nat} (a : Same t t' i) (hi : handleInternal h ≠ i) :
    meterRead t' h = meterRead t h := by
  simp only [PiRes.meterRead, mtGetRates, MUnit.queryMeter, MUnit.validHandle, a.fm, a.handles,
    a.size, a.meters _ hi]

theorem Same.remaining {t t' : Tbl L V} {i h : Nat} (a : Same t t' i) (hi : handleInternal h ≠ i)
    (now : Nat) : remaining t' h now = remaining t h now := by
  simp only [PiRes.remaining, MUnit.checkHandle, a.fa, a.handles, a.size, a.metas _ hi, a.entries]

theorem same_metas (t : Tbl L V) (i : Nat) (m : MMeta) (hv : m.version = (t.mu.metas i).version) :
    Same t { t with mu := { t.mu with metas := setAt t.mu.metas i m } } i := by
  refine ⟨rfl, rfl, rfl, rfl, rfl, ?_, ?_, fun _ _ => rfl, rfl, rfl, rfl⟩
  · intro j
    by_cases h : j = i
    · subst h; simp [setAt, hv]
    · simp [setAt, h]
  · intro j h
    simp [setAt, h]

theorem same_meters (t : Tbl L V) (i : Nat) (m : Mtr) :
    Same t { t with mu := { t.mu with meters := setAt t.mu.meters i m } } i := by
  refine ⟨rfl, rfl, rfl, rfl, rfl, fun _ => rfl, fun _ _ => rfl, ?_, rfl, rfl, rfl⟩
  intro j h
  simp [setAt, h]

/-- Resources the program has. -/
def Enabled (t : Tbl L V) : Res → Prop
  | .counter _ => t.counters = true
  | .meter s => t.meters = true ∧ Proper s

/-- The counters after `set_direct_resources`. -/
def ctrAfter (m : MMeta) (rs : List Res) : Nat × Nat :=
  match lastCounter rs with
  | none => (m.bytes, m.packets)
  | some d => fromCounter d

theorem setAllRes_ok {t : Tbl L V} {h : Nat} (hl : Live t h)
    (hm : (t.mu.meters (handleInternal h)).rates.length = 2) (rs : List Res)
    (hrs : ∀ r ∈ rs, Enabled t r) :
    ∃ t', setAllRes t h rs = some (.success, t') ∧ Same t t' (handleInternal h) ∧
      (t'.mu.metas (handleInternal h)).ts = (t.mu.metas (handleInternal h)).ts ∧
      (t'.mu.metas (handleInternal h)).timeoutMs = (t.mu.metas (handleInternal h)).timeoutMs ∧
      ((t'.mu.metas (handleInternal h)).bytes, (t'.mu.metas (handleInternal h)).packets)
        = ctrAfter (t.mu.metas (handleInternal h)) rs ∧
      (lastMeter rs = none → t'.mu.meters (handleInternal h) = t.mu.meters (handleInternal h)) ∧
      (∀ s, lastMeter rs = some s → ∃ got,
        toSpec (Meter.getRates (t'.mu.meters (handleInternal h))) = some got ∧ Shows s got ∧
        (s = MeterSpec.default → got = MeterSpec.default)) := by
  induction rs generalizing t with
  | nil =>
    exact ⟨t, rfl, Same.refl _ _, rfl, rfl, rfl, fun _ => rfl, fun s hs => by simp [lastMeter] at hs⟩
  | cons r rs ih =>
    cases r with
    | counter d =>
      have hc : t.counters = true := hrs _ (List.mem_cons_self ..)
      have e := writeCounters_live hl hc (fromCounter d).1 (fromCounter d).2
      have sm := same_metas t (handleInternal h) { t.mu.metas (handleInternal h) with
        bytes := (fromCounter d).1, packets := (fromCounter d).2 } rfl
      obtain ⟨t', a1, a2, a3, a4, a5, a6, a7⟩ := ih (sm.live hl) hm
        (fun r hr => hrs r (List.mem_cons_of_mem _ hr))
      refine ⟨t', ?_, sm.trans a2, ?_, ?_, ?_, a6, a7⟩
      · simp only [setAllRes, setRes, e, Option.bind_eq_bind, Option.bind_some, if_true]
        exact a1
      · rw [a3]; simp [setAt]
      · rw [a4]; simp [setAt]
      · rw [a5]
        simp only [ctrAfter, lastCounter, setAt, if_true]
        cases lastCounter rs <;> rfl
    | meter s =>
      obtain ⟨hc, hp⟩ : t.meters = true ∧ Proper s := hrs _ (List.mem_cons_self ..)
      obtain ⟨m', e1, e2, got, e3, e4, e5⟩ := meter_update hm hp
      have e := setRates_live hl hc e1
      have sm := same_meters t (handleInternal h) m'
      obtain ⟨t', a1, a2, a3, a4, a5, a6, a7⟩ := ih (sm.live hl) (by simpa [setAt] using e2)
        (fun r hr => hrs r (List.mem_cons_of_mem _ hr))
      refine ⟨t', ?_, sm.trans a2, a3, a4, ?_, ?_, ?_⟩
      · simp only [setAllRes, setRes, e, Option.bind_eq_bind, Option.bind_some, if_true]
        exact a1
      · rw [a5]; rfl
      · intro h0; simp [lastMeter] at h0
      · intro s' hs'
        cases hL : lastMeter rs with
        | none =>
          simp only [lastMeter, hL, Option.getD_none, Option.some.injEq] at hs'
          subst hs'
          refine ⟨got, ?_, e4, e5⟩
          rw [a6 hL]
          simpa [setAt] using e3
        | some s2 =>
          simp only [lastMeter, hL, Option.getD_some, Option.some.injEq] at hs'
          subst hs'
          exact a7 _ hL

theorem Same.others {t t' : Tbl L V} {h : Nat} (a : Same t t' (handleInternal h)) : OthersSame t t' h := by
  intro h' hne
  rw [← handleInternal_eq, ← handleInternal_eq] at hne
  exact ⟨a.counterRead hne, a.meterRead hne, a.remaining hne⟩

/-- Handles of entries are not the one of the default action. -/
theorem ne_default {sp : MatchSpec K} {W : Laws L sp} {t : Tbl L V} {E : Nat → Option (K × V)} {h : Nat}
    {kv : K × V} (hr : MRep W t.mu E) (hh : t.mu.tab E h = some kv) : h ≠ defaultHandle := by
  obtain ⟨-, he⟩ := hr.tab_some hh
  have hlt : h < 2 ^ 32 := by rw [he]; exact handleSet_lt _ _
  unfold defaultHandle
  omega

theorem remaining_live {sp : MatchSpec K} {W : Laws L sp} {t : Tbl L V} {E : Nat → Option (K × V)}
    {h : Nat} {kv : K × V} (hr : MRep W t.mu E) (hh : t.mu.tab E h = some kv) (now : Nat) :
    remaining t h now = some (.success, if t.ageing then
      remainingNs (t.mu.metas (handleInternal h)).timeoutMs (now - (t.mu.metas (handleInternal h)).ts)
      else 2 ^ 64 - 1) := by
  have hc : t.mu.checkHandle h = some .success := by
    rcases hr.checkHandle h with ⟨_, _, h2⟩ | ⟨h1, _⟩
    · exact h2
    · rw [hh] at h1; simp at h1
  unfold remaining
  simp only [hc, Option.bind_eq_bind, Option.bind_some, ne_eq, not_true_eq_false, if_false]
  cases t.ageing <;> rfl

theorem small_ms {x : Nat} (h : x < 4295) : x * 1000 < 2 ^ 32 ∧ x * 1000 * 1000 < 2 ^ 32 := by
  refine ⟨Nat.lt_of_le_of_lt (Nat.mul_le_mul_right _ (Nat.le_of_lt_succ h)) (by decide),
    Nat.lt_of_le_of_lt (Nat.mul_le_mul_right _ (Nat.mul_le_mul_right _ (Nat.le_of_lt_succ h))) (by decide)⟩

/-- A timeout that the code can express: at least a millisecond, below 4295 milliseconds. -/
theorem remainingNs_ok {ns e : Nat} (h1 : 1000000 ≤ ns) (h2 : ns < 4295000000) (he : e < 2 ^ 32) :
    remainingNs (ttlMs ns) e = restNs ns e := by
  have hm : ns / 1000000 < 4295 := by omega
  have hm1 : 1 ≤ ns / 1000000 := by omega
  unfold remainingNs ttlMs restNs
  rw [Nat.mod_eq_of_lt (show ns / 1000000 < 2 ^ 32 by omega), Nat.mod_eq_of_lt he, if_neg (by omega)]
  split
  · rename_i hgt
    generalize hx : ns / 1000000 - e = x
    have hx' : x < 4295 := by omega
    obtain ⟨g1, g2⟩ := small_ms hx'
    rw [Nat.mod_eq_of_lt g1, Nat.mod_eq_of_lt g2, Nat.mul_assoc]
  · omega

end Bm.PiRes
