import Verif.Lemmas.Field

/-!
# C46: the cast operators compute the documented integer functions

Widths are those that `get_uint` can return (an `unsigned int`), and at least 1.
-/

namespace Bm.Data

open Bm.Spec

theorem getUint_of {w : Nat} (h : w < 2 ^ 32) : getUint (w : Int) = some w := by
  unfold getUint
  rw [if_pos ⟨by omega, by exact_mod_cast h⟩]
  simp

/-- **C46**, `two_comp_mod`: the result lies in the signed range of width `w`, is congruent to the
argument modulo `2 ^ w`, and is the only such number. -/
theorem C46_two_comp_mod (x : Int) (w : Nat) (h1 : 1 ≤ w) (h : w < 2 ^ 32) :
    ∃ r, twoCompMod x w = some r ∧ (-2 ^ (w - 1) ≤ r ∧ r < 2 ^ (w - 1) ∧ (2 ^ w : Int) ∣ x - r) ∧
      ∀ s : Int, -2 ^ (w - 1) ≤ s → s < 2 ^ (w - 1) → (2 ^ w : Int) ∣ x - s → s = r := by
  have hex : ∃ r, twoCompMod x w = some r ∧
      (-2 ^ (w - 1) ≤ r ∧ r < 2 ^ (w - 1) ∧ (2 ^ w : Int) ∣ x - r) := by
    have h2 : (2 ^ w : Int) = 2 * 2 ^ (w - 1) := by
      obtain ⟨k, rfl⟩ : ∃ k, w = k + 1 := ⟨w - 1, by omega⟩
      rw [Nat.add_sub_cancel, pow_succ]; ring
    have hM : (0 : Int) < 2 ^ (w - 1) := by positivity
    have hpos : (0 : Int) < 2 ^ w := by positivity
    have hlt := Int.emod_lt_of_pos x hpos
    have hge := Int.emod_nonneg x (ne_of_gt hpos)
    have hdvd : (2 ^ w : Int) ∣ x - x % 2 ^ w := Int.dvd_self_sub_emod
    unfold twoCompMod
    simp only [getUint_of h, Option.bind_eq_bind, Option.bind_some, land_mask]
    rw [if_neg (by omega : ¬ w = 0)]
    clear h
    rw [h2] at hlt hge hdvd ⊢
    generalize (2 ^ (w - 1) : Int) = M at *
    split
    · by_cases hgt : x % (2 * M) > M - 1
      · refine ⟨x % (2 * M) - 2 * M, by rw [if_pos hgt]; rfl, by omega, by omega, ?_⟩
        rw [show x - (x % (2 * M) - 2 * M) = (x - x % (2 * M)) + 2 * M by ring]
        exact Int.dvd_add hdvd (Int.dvd_refl _)
      · exact ⟨x % (2 * M), by rw [if_neg hgt]; rfl, by omega, by omega, hdvd⟩
    · exact ⟨x, rfl, by omega, by omega, by simp⟩
  obtain ⟨r, e, e1, e2, e3⟩ := hex
  refine ⟨r, e, ⟨e1, e2, e3⟩, ?_⟩
  intro s s1 s2 s3
  have hd : (2 ^ w : Int) ∣ s - r := by
    have := Int.dvd_sub e3 s3
    rwa [show x - r - (x - s) = s - r by ring] at this
  have h2 : (2 ^ w : Int) = 2 * 2 ^ (w - 1) := by
    obtain ⟨k, rfl⟩ : ∃ k, w = k + 1 := ⟨w - 1, by omega⟩
    rw [Nat.add_sub_cancel, pow_succ]; ring
  have hM : (0 : Int) < 2 ^ (w - 1) := by positivity
  obtain ⟨k, hk⟩ := hd
  rw [h2] at hk
  clear h e e3 s3 h2
  generalize (2 ^ (w - 1) : Int) = M at *
  rcases Int.lt_trichotomy k 0 with hk0 | rfl | hk0
  · nlinarith
  · omega
  · nlinarith

/-- **C46**, `usat_cast` clamps to `[0, 2 ^ w - 1]`. -/
theorem C46_usat_cast (x : Int) (w : Nat) (h : w < 2 ^ 32) :
    ∃ r, usatCast x w = some r ∧ (x < 0 → r = 0) ∧ (2 ^ w ≤ x → r = 2 ^ w - 1) ∧
      (0 ≤ x → x < 2 ^ w → r = x) := by
  have hpos : (0 : Int) < 2 ^ w := by positivity
  unfold usatCast
  simp only [getUint_of h, Option.bind_eq_bind, Option.bind_some]
  refine ⟨_, rfl, ?_, ?_, ?_⟩
  · intro h0
    rw [if_neg (by omega), if_pos h0]
  · intro h0
    rw [if_pos (by omega)]
  · intro h0 h1
    rw [if_neg (by omega), if_neg (by omega)]

/-- **C46**, `sat_cast` clamps to `[-2 ^ (w - 1), 2 ^ (w - 1) - 1]`. -/
theorem C46_sat_cast (x : Int) (w : Nat) (h1 : 1 ≤ w) (h : w < 2 ^ 32) :
    ∃ r, satCast x w = some r ∧ (x < -2 ^ (w - 1) → r = -2 ^ (w - 1)) ∧
      (2 ^ (w - 1) ≤ x → r = 2 ^ (w - 1) - 1) ∧
      (-2 ^ (w - 1) ≤ x → x < 2 ^ (w - 1) → r = x) := by
  have hpos : (0 : Int) < 2 ^ (w - 1) := by positivity
  unfold satCast
  simp only [getUint_of h, Option.bind_eq_bind, Option.bind_some]
  rw [if_neg (by omega : ¬ w = 0)]
  clear h
  refine ⟨_, rfl, ?_, ?_, ?_⟩
  · intro h0
    rw [if_neg (by omega), if_pos h0]
  · intro h0
    rw [if_pos (by omega)]
  · intro h0 h1
    rw [if_neg (by omega), if_neg (by omega)]

/-- The example in the source: `two_comp_mod(-129, 8) = 127`. -/
example : twoCompMod (-129) 8 = some 127 ∧ twoCompMod 200 8 = some (-56) ∧ usatCast 300 8 = some 255 ∧
    usatCast (-3) 8 = some 0 ∧ satCast 300 8 = some 127 ∧ satCast (-300) 8 = some (-128) ∧
    satCast 5 8 = some 5 := by decide +kernel

end Bm.Data
