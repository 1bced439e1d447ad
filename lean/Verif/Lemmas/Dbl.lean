import Verif.Model.Dbl
import Mathlib.Tactic.Ring
import Mathlib.Tactic.Linarith
import Mathlib.Order.Basic

/-! # Lemmas about non-negative `double` -/

namespace Bm.Dbl

theorem one_pos : 0 < one := by unfold one; exact Nat.two_pow_pos 1074

theorem ulp_pos (q : Nat) : 0 < ulp q := Nat.two_pow_pos _

theorem rne_exact (k d : Nat) (hd : 0 < d) : rne (k * d) d = k := by
  unfold rne
  rw [Nat.mul_mod_left, if_pos (by omega), Nat.mul_div_cancel _ hd]

/-- The error of rounding to an integer is at most one half. -/
theorem rne_err (n d : Nat) (hd : 0 < d) :
    2 * n ≤ 2 * (rne n d * d) + d ∧ 2 * (rne n d * d) ≤ 2 * n + d := by
  have h := Nat.div_add_mod n d
  have hr := Nat.mod_lt n hd
  unfold rne
  generalize hq : n / d = q at *
  generalize hm : n % d = r at *
  have hqd : d * q = q * d := Nat.mul_comm ..
  split
  · constructor <;> omega
  · split
    · rw [Nat.add_mul]; constructor <;> omega
    · rcases Nat.mod_two_eq_zero_or_one q with e | e <;> rw [e, Nat.add_mul] <;>
        constructor <;> omega

theorem div_le_div_cross {n d n' d' : Nat} (hd : 0 < d) (hd' : 0 < d') (h : n * d' ≤ n' * d) :
    n / d ≤ n' / d' := by
  rw [Nat.le_div_iff_mul_le hd']
  have h1 : n / d * d ≤ n := Nat.div_mul_le_self n d
  have h2 : n / d * d * d' ≤ n' * d := le_trans (Nat.mul_le_mul_right _ h1) h
  have h3 : (n / d * d') * d ≤ n' * d := by
    rw [Nat.mul_right_comm]; exact h2
  exact Nat.le_of_mul_le_mul_right h3 hd

theorem rne_bounds (n d : Nat) : n / d ≤ rne n d ∧ rne n d ≤ n / d + 1 := by
  unfold rne
  split
  · omega
  · split
    · omega
    · have := Nat.mod_lt (n / d) (show 0 < 2 by omega); omega

/-- Rounding to an integer keeps the order. -/
theorem rne_mono {n d n' d' : Nat} (hd : 0 < d) (hd' : 0 < d') (h : n * d' ≤ n' * d) :
    rne n d ≤ rne n' d' := by
  have hq := div_le_div_cross hd hd' h
  obtain ⟨b1, b2⟩ := rne_bounds n d
  obtain ⟨c1, c2⟩ := rne_bounds n' d'
  rcases Nat.lt_or_ge (n / d) (n' / d') with hlt | hge
  · omega
  · have heq : n / d = n' / d' := by omega
    -- same integer part: compare the remainders
    have e1 := Nat.div_add_mod n d
    have e2 := Nat.div_add_mod n' d'
    have hrem : (n % d) * d' ≤ (n' % d') * d := by
      have h' : (d * (n / d) + n % d) * d' ≤ (d' * (n' / d') + n' % d') * d := by rw [e1, e2]; exact h
      rw [heq] at h'
      have : d * (n' / d') * d' = d' * (n' / d') * d := by ring
      rw [Nat.add_mul, Nat.add_mul, this] at h'
      omega
    unfold rne
    rw [heq]
    generalize n' / d' = q at *
    generalize n % d = r at *
    generalize n' % d' = r' at *
    by_cases a1 : 2 * r < d
    · rw [if_pos a1]
      split
      · exact Nat.le_refl _
      · split <;> omega
    · rw [if_neg a1]
      have k1 : d * d' ≤ 2 * r * d' := Nat.mul_le_mul_right _ (by omega)
      have k2 : d * d' ≤ (2 * r') * d := by
        calc d * d' ≤ 2 * r * d' := k1
          _ = 2 * (r * d') := by ring
          _ ≤ 2 * (r' * d) := Nat.mul_le_mul_left _ hrem
          _ = (2 * r') * d := by ring
      have k3 : d' ≤ 2 * r' := by
        rw [Nat.mul_comm d d'] at k2
        exact Nat.le_of_mul_le_mul_right k2 hd
      rw [if_neg (show ¬ 2 * r' < d' by omega)]
      by_cases a2 : d < 2 * r
      · rw [if_pos a2]
        have k4 : d * d' < (2 * r') * d := by
          calc d * d' < 2 * r * d' := Nat.mul_lt_mul_of_pos_right a2 hd'
            _ = 2 * (r * d') := by ring
            _ ≤ 2 * (r' * d) := Nat.mul_le_mul_left _ hrem
            _ = (2 * r') * d := by ring
        have k5 : d' < 2 * r' := by
          rw [Nat.mul_comm d d'] at k4
          exact Nat.lt_of_mul_lt_mul_right k4
        rw [if_pos k5]
      · rw [if_neg a2]
        split
        · have := Nat.mod_lt q (show 0 < 2 by omega); omega
        · exact Nat.le_refl _

theorem log2_mono {a b : Nat} (h : a ≤ b) : Nat.log2 a ≤ Nat.log2 b := by
  rcases Nat.eq_zero_or_pos a with rfl | ha
  · simp [Nat.log2_zero]
  · rw [Nat.le_log2 (by omega)]
    exact le_trans (Nat.log2_self_le (by omega)) h

/-- Below the next power of two, rounding does not go past it. -/
theorem rnd_le_pow {n d : Nat} (hd : 0 < d) (hq : 2 ^ 52 ≤ n / d) :
    rnd n d ≤ 2 ^ (Nat.log2 (n / d) + 1) := by
  have hl : 52 ≤ Nat.log2 (n / d) := by
    rw [Nat.le_log2 (by omega)]; exact hq
  unfold rnd
  have hu : ulp (n / d) * 2 ^ 53 = 2 ^ (Nat.log2 (n / d) + 1) := by
    unfold ulp
    rw [← Nat.pow_add]
    congr 1
    omega
  rw [← hu, Nat.mul_comm]
  apply Nat.mul_le_mul_left
  have hlt : n / d < 2 ^ (Nat.log2 (n / d) + 1) := Nat.lt_log2_self
  have hn : n < d * 2 ^ (Nat.log2 (n / d) + 1) := by
    rw [Nat.mul_comm, ← Nat.div_lt_iff_lt_mul hd]; exact hlt
  have := rne_mono (n := n) (d := d * ulp (n / d)) (n' := 2 ^ 53) (d' := 1)
    (Nat.mul_pos hd (ulp_pos _)) (by omega) (by
      rw [Nat.mul_one]
      calc n ≤ d * 2 ^ (Nat.log2 (n / d) + 1) := le_of_lt hn
        _ = 2 ^ 53 * (d * ulp (n / d)) := by rw [← hu]; ring)
  have e : rne (2 ^ 53) 1 = 2 ^ 53 := by
    have := rne_exact (2 ^ 53) 1 (by omega)
    rwa [Nat.mul_one] at this
  rw [e] at this
  exact this

/-- The power of two below is not gone past either. -/
theorem pow_le_rnd {n d : Nat} (hd : 0 < d) (hq : 2 ^ 52 ≤ n / d) :
    2 ^ Nat.log2 (n / d) ≤ rnd n d := by
  have hl : 52 ≤ Nat.log2 (n / d) := by
    rw [Nat.le_log2 (by omega)]; exact hq
  unfold rnd
  have hu : ulp (n / d) * 2 ^ 52 = 2 ^ Nat.log2 (n / d) := by
    unfold ulp
    rw [← Nat.pow_add]
    congr 1
    omega
  rw [← hu, Nat.mul_comm]
  apply Nat.mul_le_mul_right
  have hge : 2 ^ Nat.log2 (n / d) ≤ n / d := Nat.log2_self_le (by omega)
  have hn : d * 2 ^ Nat.log2 (n / d) ≤ n := by
    rw [Nat.mul_comm]; exact (Nat.le_div_iff_mul_le hd).mp hge
  have := rne_mono (n := 2 ^ 52) (d := 1) (n' := n) (d' := d * ulp (n / d))
    (by omega) (Nat.mul_pos hd (ulp_pos _)) (by
      rw [Nat.mul_one]
      calc 2 ^ 52 * (d * ulp (n / d)) = d * 2 ^ Nat.log2 (n / d) := by rw [← hu]; ring
        _ ≤ n := hn)
  have e : rne (2 ^ 52) 1 = 2 ^ 52 := by
    have := rne_exact (2 ^ 52) 1 (by omega)
    rwa [Nat.mul_one] at this
  rw [e] at this
  exact this

/-- Rounding keeps the order. -/
theorem rnd_mono {n d n' d' : Nat} (hd : 0 < d) (hd' : 0 < d') (h : n * d' ≤ n' * d) :
    rnd n d ≤ rnd n' d' := by
  have hq := div_le_div_cross hd hd' h
  have hl := log2_mono hq
  by_cases he : ulp (n / d) = ulp (n' / d')
  · unfold rnd
    rw [he]
    apply Nat.mul_le_mul_right
    apply rne_mono (Nat.mul_pos hd (ulp_pos _)) (Nat.mul_pos hd' (ulp_pos _))
    calc n * (d' * ulp (n' / d')) = n * d' * ulp (n' / d') := by ring
      _ ≤ n' * d * ulp (n' / d') := Nat.mul_le_mul_right _ h
      _ = n' * (d * ulp (n' / d')) := by ring
  · have hlt : Nat.log2 (n / d) < Nat.log2 (n' / d') := by
      rcases Nat.lt_or_ge (Nat.log2 (n / d)) (Nat.log2 (n' / d')) with h' | h'
      · exact h'
      · exfalso; apply he; unfold ulp; rw [Nat.le_antisymm hl h']
    have h52 : 52 < Nat.log2 (n' / d') := by
      rcases Nat.lt_or_ge 52 (Nat.log2 (n' / d')) with h' | h'
      · exact h'
      · exfalso; apply he
        unfold ulp
        rw [show Nat.log2 (n / d) - 52 = 0 by omega, show Nat.log2 (n' / d') - 52 = 0 by omega]
    have hb' : 2 ^ 52 ≤ n' / d' := by
      have : n' / d' ≠ 0 := by
        intro e; rw [e, Nat.log2_zero] at h52; omega
      exact le_trans (Nat.pow_le_pow_right (by omega) (by omega)) (Nat.log2_self_le this)
    have hlow := pow_le_rnd hd' hb'
    by_cases hb : 2 ^ 52 ≤ n / d
    · exact le_trans (rnd_le_pow hd hb)
        (le_trans (Nat.pow_le_pow_right (by omega) (by omega)) hlow)
    · -- below 2^52 units, the unit is the distance
      have hu : ulp (n / d) = 1 := by
        unfold ulp
        have : Nat.log2 (n / d) < 52 := by
          rcases Nat.eq_zero_or_pos (n / d) with e | e
          · rw [e, Nat.log2_zero]; omega
          · rw [Nat.log2_lt (by omega)]; omega
        rw [show Nat.log2 (n / d) - 52 = 0 by omega]
      have : rnd n d ≤ n / d + 1 := by
        unfold rnd
        rw [hu, Nat.mul_one, Nat.mul_one]
        exact (rne_bounds n d).2
      calc rnd n d ≤ n / d + 1 := this
        _ ≤ 2 ^ 52 := by omega
        _ ≤ 2 ^ Nat.log2 (n' / d') := Nat.pow_le_pow_right (by omega) (by omega)
        _ ≤ _ := hlow

/-- The relative error of rounding is at most 2^-53 (for at least 2^52 units). -/
theorem rnd_err {n d : Nat} (hd : 0 < d) (hq : 2 ^ 52 ≤ n / d) :
    2 ^ 53 * n ≤ 2 ^ 53 * (rnd n d * d) + n ∧ 2 ^ 53 * (rnd n d * d) ≤ 2 ^ 53 * n + n := by
  have hl : 52 ≤ Nat.log2 (n / d) := by
    rw [Nat.le_log2 (by omega)]; exact hq
  have hu : ulp (n / d) * 2 ^ 52 = 2 ^ Nat.log2 (n / d) := by
    unfold ulp
    rw [← Nat.pow_add]
    congr 1
    omega
  have hge : 2 ^ Nat.log2 (n / d) ≤ n / d := Nat.log2_self_le (by omega)
  have hn : 2 ^ 52 * (d * ulp (n / d)) ≤ n := by
    calc 2 ^ 52 * (d * ulp (n / d)) = (ulp (n / d) * 2 ^ 52) * d := by ring
      _ ≤ n / d * d := Nat.mul_le_mul_right _ (hu ▸ hge)
      _ ≤ n := Nat.div_mul_le_self n d
  obtain ⟨e1, e2⟩ := rne_err n (d * ulp (n / d)) (Nat.mul_pos hd (ulp_pos _))
  have hr : rnd n d * d = rne n (d * ulp (n / d)) * (d * ulp (n / d)) := by
    unfold rnd; ring
  rw [hr]
  generalize rne n (d * ulp (n / d)) * (d * ulp (n / d)) = x at *
  generalize d * ulp (n / d) = y at *
  omega

set_option exponentiation.threshold 2000 in
/-- Integers below 2^53 are represented exactly. -/
theorem ofNat_exact {r : Nat} (h : r < 2 ^ 53) : ofNat r = r * one := by
  unfold ofNat rnd
  rw [Nat.div_one, Nat.one_mul]
  have hdvd : ulp (r * one) ∣ r * one := by
    rcases Nat.eq_zero_or_pos r with rfl | hr
    · simp
    · have hl : Nat.log2 (r * one) ≤ 1074 + 52 := by
        have hpos : r * one ≠ 0 := Nat.ne_of_gt (Nat.mul_pos hr one_pos)
        have : Nat.log2 (r * one) < 1127 := by
          rw [Nat.log2_lt hpos]
          calc r * one < 2 ^ 53 * one := Nat.mul_lt_mul_of_pos_right h one_pos
            _ = 2 ^ 1127 := by unfold one; rw [← Nat.pow_add]
        omega
      exact Dvd.dvd.mul_left (Nat.pow_dvd_pow 2 (by omega)) r
  obtain ⟨k, hk⟩ := hdvd
  have e : r * one = k * ulp (r * one) := by rw [Nat.mul_comm k]; exact hk
  have : rne (r * one) (ulp (r * one)) = k := by
    conv => lhs; arg 1; rw [e]
    exact rne_exact k _ (ulp_pos _)
  rw [this]; exact e.symm

theorem ofNat_mono {a b : Nat} (h : a ≤ b) : ofNat a ≤ ofNat b :=
  rnd_mono (by omega) (by omega) (by
    rw [Nat.mul_one, Nat.mul_one]; exact Nat.mul_le_mul_right _ h)

theorem mul_mono_left {a b : Nat} (c : Nat) (h : a ≤ b) : mul a c ≤ mul b c :=
  rnd_mono one_pos one_pos (Nat.mul_le_mul_right _ (Nat.mul_le_mul_right _ h))

theorem div_mono {a b c : Nat} (hc : 0 < c) (h : a ≤ b) : div a c ≤ div b c :=
  rnd_mono hc hc (Nat.mul_le_mul_right _ (Nat.mul_le_mul_right _ h))

theorem trunc_mono {a b : Nat} (h : a ≤ b) : trunc a ≤ trunc b := Nat.div_le_div_right h

/-- The product with an integer below 2^53, truncated, is the exact product up to a relative error of
2^-53 and less than one. -/
theorem acc_err (r t : Nat) (ht : t < 2 ^ 53) :
    2 ^ 53 * (trunc (mul (ofNat t) r) * one) ≤ 2 ^ 53 * (t * r) + t * r ∧
    2 ^ 53 * (t * r) < 2 ^ 53 * (trunc (mul (ofNat t) r) * one + one) + t * r := by
  rw [ofNat_exact ht]
  have hone := one_pos
  have hprod : t * one * r = t * r * one := by ring
  have hq : t * one * r / one = t * r := by rw [hprod, Nat.mul_div_cancel _ hone]
  have h1 : trunc (mul (t * one) r) * one ≤ mul (t * one) r := Nat.div_mul_le_self ..
  have h2 : mul (t * one) r < trunc (mul (t * one) r) * one + one := by
    have := Nat.lt_div_mul_add (a := mul (t * one) r) hone
    exact this
  by_cases hb : 2 ^ 52 ≤ t * r
  · obtain ⟨e1, e2⟩ := rnd_err (n := t * one * r) (d := one) hone (by rw [hq]; exact hb)
    have f1 : 2 ^ 53 * (t * r) ≤ 2 ^ 53 * mul (t * one) r + t * r := by
      apply Nat.le_of_mul_le_mul_right _ hone
      calc 2 ^ 53 * (t * r) * one = 2 ^ 53 * (t * one * r) := by ring
        _ ≤ 2 ^ 53 * (rnd (t * one * r) one * one) + t * one * r := e1
        _ = (2 ^ 53 * mul (t * one) r + t * r) * one := by unfold mul; ring
    have f2 : 2 ^ 53 * mul (t * one) r ≤ 2 ^ 53 * (t * r) + t * r := by
      apply Nat.le_of_mul_le_mul_right _ hone
      calc 2 ^ 53 * mul (t * one) r * one = 2 ^ 53 * (rnd (t * one * r) one * one) := by
            unfold mul; ring
        _ ≤ 2 ^ 53 * (t * one * r) + t * one * r := e2
        _ = (2 ^ 53 * (t * r) + t * r) * one := by ring
    generalize mul (t * one) r = x at *
    generalize trunc x * one = y at *
    generalize t * r = z at *
    omega
  · -- fewer than 2^52 units: exact
    have hu : ulp (t * r) = 1 := by
      unfold ulp
      have : Nat.log2 (t * r) < 52 := by
        rcases Nat.eq_zero_or_pos (t * r) with e | e
        · rw [e, Nat.log2_zero]; omega
        · rw [Nat.log2_lt (by omega)]; omega
      rw [show Nat.log2 (t * r) - 52 = 0 by omega]
    have e : mul (t * one) r = t * r := by
      unfold mul rnd
      rw [hq, hu, Nat.mul_one, Nat.mul_one, hprod, rne_exact _ _ hone]
    rw [e] at h1 h2 ⊢
    generalize trunc (t * r) * one = y at *
    generalize t * r = z at *
    omega

end Bm.Dbl
