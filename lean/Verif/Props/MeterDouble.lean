import Verif.Lemmas.Dbl
import Verif.Props.Meter

/-!
# C21 with the `double` arithmetic of the code

`C21_burst_and_rate` holds for any arithmetic whose accrual grows with time.  Here the accrual is
computed as the code does, in `double` (`/repo/src/bm_sim/meters.cpp:75-76`), and the bound is given
in exact numbers.
-/

namespace Bm.Meter
open Bm.Spec.Meter

/-- The arithmetic of the code on non-negative rates (in units of 2^-1074).
`/repo/src/bm_sim/meters.cpp:37, 75-76`. -/
def dblArith : RateArith Nat where
  acc r t := Dbl.trunc (Dbl.mul (Dbl.ofNat t) r)
  gt a b := decide (b < a)

/-- The accrual computed in `double` never decreases, so that the assertion of `execute` holds and
C21 and C22 apply to the arithmetic of the code. -/
theorem dblArith_mono (r : Nat) : Monotone (dblArith.acc r) := by
  intro a b h
  exact Dbl.trunc_mono (Dbl.mul_mono_left _ (Dbl.ofNat_mono h))

set_option exponentiation.threshold 2000 in
/-- **C21** in the arithmetic of the code: over an interval that ends less than 2^53 microseconds
(285 years) after the creation of the meter, the units coloured below level `k` exceed burst size
plus rate times duration by less than one unit and 2^-53 of what the rate accrues from the creation
of the meter to the two ends of the interval. -/
theorem C21_double {m m0 m1 m2 : Meter Nat} {cs}
    (hset : setRates dblArith m cs = some (.success, m0)) {pkts1 pkts2 cols1 cols2}
    (h1 : runPkts dblArith m0 pkts1 = some (cols1, m1))
    (h2 : runPkts dblArith m1 pkts2 = some (cols2, m2))
    {t1 t2 : Nat} (h12 : t1 ≤ t2) (ht2 : t2 < 2 ^ 53)
    (ht : ∀ p ∈ pkts2, t1 ≤ (view m p).1 ∧ (view m p).1 ≤ t2)
    {k : Nat} {c : Config Nat} (hk : cs[k]? = some c)
    {rate : ℚ} (hrate : rate = (c.infoRate : ℚ) / 2 ^ 1074) :
    (passed (k + 1) (pkts2.map (view m)) cols2 : ℚ)
      < c.burst + rate * ((t2 : ℚ) - t1) + 1 + rate * ((t1 : ℚ) + t2) / 2 ^ 53 := by
  have h := C21_burst_and_rate dblArith_mono hset h1 h2 ht hk
  have hm := dblArith_mono c.infoRate h12
  have hq : (passed (k + 1) (pkts2.map (view m)) cols2 : ℚ)
      ≤ c.burst + ((dblArith.acc c.infoRate t2 : ℚ) - dblArith.acc c.infoRate t1) := by
    have : (passed (k + 1) (pkts2.map (view m)) cols2 : ℚ)
      ≤ ((c.burst + (dblArith.acc c.infoRate t2 - dblArith.acc c.infoRate t1) : Nat) : ℚ) := by
      exact_mod_cast h
    rw [Nat.cast_add, Nat.cast_sub hm] at this
    exact this
  have honeN := Dbl.one_pos
  have hone : (0 : ℚ) < (Dbl.one : ℚ) := by exact_mod_cast honeN
  have hrate' : (c.infoRate : ℚ) = rate * Dbl.one := by
    rw [hrate]
    have : ((2 : ℚ) ^ 1074) = (Dbl.one : ℚ) := by
      unfold Dbl.one; rw [Nat.cast_pow, Nat.cast_ofNat]
    rw [this]
    field_simp
  have a2 := (Dbl.acc_err c.infoRate t2 ht2).1
  have a1 := (Dbl.acc_err c.infoRate t1 (by omega)).2
  have b2 : (2 : ℚ) ^ 53 * ((dblArith.acc c.infoRate t2 : ℚ) * Dbl.one)
      ≤ 2 ^ 53 * ((t2 : ℚ) * c.infoRate) + t2 * c.infoRate := by
    show (2 : ℚ) ^ 53 * ((Dbl.trunc (Dbl.mul (Dbl.ofNat t2) c.infoRate) : ℚ) * Dbl.one) ≤ _
    exact_mod_cast a2
  have b1 : (2 : ℚ) ^ 53 * ((t1 : ℚ) * c.infoRate)
      < 2 ^ 53 * ((dblArith.acc c.infoRate t1 : ℚ) * Dbl.one + Dbl.one) + t1 * c.infoRate := by
    show _ < (2 : ℚ) ^ 53 * ((Dbl.trunc (Dbl.mul (Dbl.ofNat t1) c.infoRate) : ℚ) * Dbl.one + Dbl.one) + _
    exact_mod_cast a1
  rw [hrate'] at b1 b2
  generalize (dblArith.acc c.infoRate t2 : ℚ) = x2 at *
  generalize (dblArith.acc c.infoRate t1 : ℚ) = x1 at *
  have c2 : (2 : ℚ) ^ 53 * x2 ≤ 2 ^ 53 * (t2 * rate) + t2 * rate := by
    refine le_of_mul_le_mul_right ?_ hone
    linarith
  have c1 : (2 : ℚ) ^ 53 * (t1 * rate) < 2 ^ 53 * (x1 + 1) + t1 * rate := by
    refine lt_of_mul_lt_mul_right ?_ (le_of_lt hone)
    linarith
  have d2 : x2 ≤ t2 * rate + t2 * rate / 2 ^ 53 := by
    have : (0 : ℚ) < 2 ^ 53 := by positivity
    rw [← sub_nonneg] at c2 ⊢
    have e : t2 * rate + t2 * rate / 2 ^ 53 - x2
        = (2 ^ 53 * (t2 * rate) + t2 * rate - 2 ^ 53 * x2) / 2 ^ 53 := by field_simp
    rw [e]
    exact div_nonneg c2 (le_of_lt this)
  have d1 : t1 * rate < x1 + 1 + t1 * rate / 2 ^ 53 := by
    have : (0 : ℚ) < 2 ^ 53 := by positivity
    rw [← sub_pos] at c1 ⊢
    have e : x1 + 1 + t1 * rate / 2 ^ 53 - t1 * rate
        = (2 ^ 53 * (x1 + 1) + t1 * rate - 2 ^ 53 * (t1 * rate)) / 2 ^ 53 := by field_simp
    rw [e]
    exact div_pos c1 this
  have e : rate * ((t1 : ℚ) + t2) / 2 ^ 53 = t1 * rate / 2 ^ 53 + t2 * rate / 2 ^ 53 := by ring
  rw [e]
  linarith

namespace Ex

/-- A rate of 0.1 bytes per microsecond (the `double` next to it) accrues 0, 0, 1, 100 bytes after
0, 9, 10 and 1000 microseconds. -/
theorem C21_double_case : (dblArith.acc (Dbl.div (Dbl.ofNat 1) (Dbl.ofNat 10)) 0,
    dblArith.acc (Dbl.div (Dbl.ofNat 1) (Dbl.ofNat 10)) 9,
    dblArith.acc (Dbl.div (Dbl.ofNat 1) (Dbl.ofNat 10)) 10,
    dblArith.acc (Dbl.div (Dbl.ofNat 1) (Dbl.ofNat 10)) 1000) = (0, 0, 1, 100) := by
  decide +kernel

end Ex

end Bm.Meter
