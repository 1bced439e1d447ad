import Verif.Model.Cksum
import Verif.Spec.Cksum
import Mathlib.Tactic.Ring
import Mathlib.Tactic.IntervalCases

/-!
# The checksum: arithmetic modulo `2^16 - 1`
-/

namespace Bm.Cksum

/-- The same number modulo `2^16 - 1`, zero being told from `2^16 - 1`. -/
def Rep (s n : Nat) : Prop := s % 65535 = n % 65535 ∧ (s = 0 ↔ n = 0)

theorem Rep.trans {a b c : Nat} (h1 : Rep a b) (h2 : Rep b c) : Rep a c :=
  ⟨h1.1.trans h2.1, h1.2.trans h2.2⟩

theorem Rep.add {a b c d : Nat} (h1 : Rep a b) (h2 : Rep c d) : Rep (a + c) (b + d) := by
  obtain ⟨h1, h1'⟩ := h1
  obtain ⟨h2, h2'⟩ := h2
  refine ⟨?_, ?_⟩ <;> omega

theorem Rep.rfl {a : Nat} : Rep a a := ⟨Eq.refl _, Iff.rfl⟩

theorem Rep.unique {a b : Nat} (h : Rep a b) (ha : a ≤ 65535) (hb : b ≤ 65535) : a = b := by
  obtain ⟨h, h'⟩ := h
  omega

theorem addc_eq (w : Nat) {a b : Nat} (ha : a < 2 ^ w) (hb : b < 2 ^ w) :
    addc w a b = if a + b < 2 ^ w then a + b else a + b - 2 ^ w + 1 := by
  unfold addc
  generalize 2 ^ w = m at *
  split
  · rename_i h
    rw [Nat.mod_eq_of_lt h]
    simp
  · rename_i h
    have e : (a + b) % m = a + b - m := by
      rw [Nat.mod_eq_sub_mod (by omega), Nat.mod_eq_of_lt (by omega)]
    simp only [e]
    rw [if_pos (by omega), Nat.mod_eq_of_lt (by omega)]

theorem addc_lt (w : Nat) {a b : Nat} (ha : a < 2 ^ w) (hb : b < 2 ^ w) : addc w a b < 2 ^ w := by
  rw [addc_eq w ha hb]
  split <;> omega

theorem addc_rep {w k : Nat} (hw : 2 ^ w = 65535 * k + 1) {a b : Nat} (ha : a < 2 ^ w)
    (hb : b < 2 ^ w) : Rep (addc w a b) (a + b) := by
  rw [addc_eq w ha hb]
  split
  · exact .rfl
  · rename_i h
    refine ⟨?_, by omega⟩
    rw [hw] at *
    have : a + b = (a + b - (65535 * k + 1) + 1) + 65535 * k := by omega
    conv_rhs => rw [this]
    rw [Nat.add_mul_mod_self_left]

theorem le_lt : ∀ bs : Bytes, le bs < 256 ^ bs.length
  | [] => by simp [le]
  | b :: bs => by
    have h1 := le_lt bs
    have h2 := b.toNat_lt
    simp only [le, List.length_cons, Nat.pow_succ]
    omega

theorem le_append : ∀ xs ys : Bytes, le (xs ++ ys) = le xs + 256 ^ xs.length * le ys
  | [], ys => by simp [le]
  | x :: xs, ys => by
    simp only [List.cons_append, le, le_append xs ys, List.length_cons, Nat.pow_succ]
    ring

theorem le_append_rep (xs ys : Bytes) (k : Nat) (h : xs.length = 2 * k) :
    Rep (le xs + le ys) (le (xs ++ ys)) := by
  rw [le_append, h, Nat.pow_mul]
  have : (256 ^ 2) ^ k % 65535 = 1 % 65535 := by
    rw [show 256 ^ 2 = 65536 by rfl, Nat.pow_mod]
    simp
  refine ⟨?_, ?_⟩
  · rw [Nat.add_mod, Nat.add_mod (le xs) ((256 ^ 2) ^ k * le ys), Nat.mul_mod, this, ← Nat.mul_mod,
      Nat.one_mul]
  · have hp : 0 < (256 ^ 2) ^ k := Nat.pow_pos (by omega)
    have : (256 ^ 2) ^ k * le ys = 0 ↔ le ys = 0 := by
      rw [Nat.mul_eq_zero]
      omega
    omega

theorem mainLoop_rep (buf : Bytes) (sum : Nat) (hs : sum < 2 ^ 64) :
    (mainLoop buf sum).1 < 2 ^ 64 ∧ (mainLoop buf sum).2.length < 8 ∧
      Rep ((mainLoop buf sum).1 + le (mainLoop buf sum).2) (sum + le buf) := by
  induction buf, sum using mainLoop.induct with
  | case1 b0 b1 b2 b3 b4 b5 b6 b7 bs sum ih =>
    have hl : le [b0, b1, b2, b3, b4, b5, b6, b7] < 2 ^ 64 := by
      have := le_lt [b0, b1, b2, b3, b4, b5, b6, b7]
      simp only [List.length_cons, List.length_nil, Nat.zero_add, Nat.reduceAdd, Nat.reducePow] at this
      simpa only [Nat.reducePow] using this
    obtain ⟨h1, h2, h3⟩ := ih (addc_lt 64 hs hl)
    rw [mainLoop]
    refine ⟨h1, h2, h3.trans ?_⟩
    have h4 := (addc_rep (w := 64) (k := (2 ^ 64 - 1) / 65535) (by norm_num) hs hl).add (Rep.rfl (a := le bs))
    refine h4.trans ?_
    rw [Nat.add_assoc]
    exact Rep.rfl.add (le_append_rep [b0, b1, b2, b3, b4, b5, b6, b7] bs 4 rfl)
  | case2 bs sum h =>
    rw [mainLoop]
    · refine ⟨hs, ?_, Rep.rfl⟩
      rcases bs with _ | ⟨b0, _ | ⟨b1, _ | ⟨b2, _ | ⟨b3, _ | ⟨b4, _ | ⟨b5, _ | ⟨b6, _ | ⟨b7, bs⟩⟩⟩⟩⟩⟩⟩⟩ <;>
        first
        | (simp only [List.length_cons, List.length_nil]; omega)
        | exact (h _ _ _ _ _ _ _ _ _ (Eq.refl _)).elim
    · exact h

theorem tail_rep (s : Nat) (bs : Bytes) (hs : s < 2 ^ 64) (hb : bs.length < 8) :
    ∃ r, r < 2 ^ 64 ∧ Rep r (s + le bs) ∧
      (tailStep bs.length 1 (tailStep bs.length 2 (tailStep bs.length 4 (s, bs)))).1 = r := by
  have step : ∀ (s : Nat) (x y : Bytes), s < 2 ^ 64 → (x.length = 4 ∨ x.length = 2) →
      addc 64 s (le x) < 2 ^ 64 ∧ Rep (addc 64 s (le x) + le y) (s + le (x ++ y)) := by
    intro s x y hs hx
    have hl : le x < 2 ^ 64 := by
      have := le_lt x
      rcases hx with hx | hx <;> rw [hx] at this <;> omega
    refine ⟨addc_lt 64 hs hl, ?_⟩
    refine ((addc_rep (w := 64) (k := (2 ^ 64 - 1) / 65535) (by norm_num) hs hl).add Rep.rfl).trans ?_
    rw [Nat.add_assoc]
    refine Rep.rfl.add (le_append_rep x y (x.length / 2) (by omega))
  have last : ∀ (s : Nat) (x : UInt8), s < 2 ^ 64 →
      addc 64 s (le [x]) < 2 ^ 64 ∧ Rep (addc 64 s (le [x])) (s + le [x]) := by
    intro s x hs
    have hl : le [x] < 2 ^ 64 := by
      have := le_lt [x]
      simp only [List.length_cons, List.length_nil] at this
      omega
    exact ⟨addc_lt 64 hs hl, addc_rep (w := 64) (k := (2 ^ 64 - 1) / 65535) (by norm_num) hs hl⟩
  refine ⟨_, ?_, ?_, Eq.refl _⟩ <;>
  rcases bs with _ | ⟨b0, _ | ⟨b1, _ | ⟨b2, _ | ⟨b3, _ | ⟨b4, _ | ⟨b5, _ | ⟨b6, _ | ⟨b7, bs⟩⟩⟩⟩⟩⟩⟩⟩ <;>
  simp only [tailStep, List.length_cons, List.length_nil, Nat.reduceAdd, Nat.reduceAnd, ne_eq,
    OfNat.ofNat_ne_zero, one_ne_zero, not_true_eq_false, not_false_eq_true, if_true, if_false,
    List.take_succ_cons, List.drop_succ_cons, List.take_zero, List.drop_zero]
  · exact hs
  · exact (last s b0 hs).1
  · exact (step s [b0, b1] [] hs (.inr rfl)).1
  · exact (last _ b2 (step s [b0, b1] [b2] hs (.inr rfl)).1).1
  · exact (step s [b0, b1, b2, b3] [] hs (.inl rfl)).1
  · exact (last _ b4 (step s [b0, b1, b2, b3] [b4] hs (.inl rfl)).1).1
  · exact (step _ [b4, b5] [] (step s [b0, b1, b2, b3] [b4] hs (.inl rfl)).1 (.inr rfl)).1
  · exact (last _ b6 (step _ [b4, b5] [] (step s [b0, b1, b2, b3] [b4] hs (.inl rfl)).1 (.inr rfl)).1).1
  · simp only [List.length_cons] at hb
    omega
  · exact Rep.rfl
  · exact (last s b0 hs).2
  · exact (step s [b0, b1] [] hs (.inr rfl)).2
  · exact ((last _ b2 (step s [b0, b1] [b2] hs (.inr rfl)).1).2).trans
      (step s [b0, b1] [b2] hs (.inr rfl)).2
  · exact (step s [b0, b1, b2, b3] [] hs (.inl rfl)).2
  · exact ((last _ b4 (step s [b0, b1, b2, b3] [b4] hs (.inl rfl)).1).2).trans
      (step s [b0, b1, b2, b3] [b4] hs (.inl rfl)).2
  · exact ((step _ [b4, b5] [] (step s [b0, b1, b2, b3] [b4] hs (.inl rfl)).1 (.inr rfl)).2).trans
      (step s [b0, b1, b2, b3] [b4, b5] hs (.inl rfl)).2
  · exact ((last _ b6 (step _ [b4, b5] [] (step s [b0, b1, b2, b3] [b4] hs (.inl rfl)).1 (.inr rfl)).1).2).trans
      (((step _ [b4, b5] [b6] (step s [b0, b1, b2, b3] [b4] hs (.inl rfl)).1 (.inr rfl)).2).trans
      (step s [b0, b1, b2, b3] [b4, b5, b6] hs (.inl rfl)).2)
  · simp only [List.length_cons] at hb
    omega

theorem fold_rep (s : Nat) (hs : s < 2 ^ 64) : fold s < 2 ^ 16 ∧ Rep (fold s) s := by
  have split : ∀ (w k s : Nat), 2 ^ w = 65535 * k + 1 → Rep (s % 2 ^ w + s / 2 ^ w) s := by
    intro w k s hw
    have h := Nat.mod_add_div s (2 ^ w)
    have h2 : 0 < 2 ^ w := Nat.pow_pos (by omega)
    refine ⟨?_, ?_⟩
    · conv_rhs => rw [← h, hw, Nat.add_mul, Nat.one_mul, Nat.mul_assoc, ← Nat.add_assoc,
        Nat.add_right_comm, Nat.add_mul_mod_self_left, ← hw]
    · constructor
      · intro h0
        have h3 := (Nat.add_eq_zero_iff.mp h0).2
        rw [h3] at h
        omega
      · rintro rfl
        simp
  unfold fold
  have h2 : s / 2 ^ 32 % 2 ^ 32 = s / 2 ^ 32 := Nat.mod_eq_of_lt (by omega)
  rw [h2]
  have a := addc_rep (w := 32) (k := (2 ^ 32 - 1) / 65535) (by norm_num)
    (a := s % 2 ^ 32) (b := s / 2 ^ 32) (by omega) (by omega)
  have b := addc_lt 32 (a := s % 2 ^ 32) (b := s / 2 ^ 32) (by omega) (by omega)
  have c := split 32 ((2 ^ 32 - 1) / 65535) s (by norm_num)
  simp only
  generalize addc 32 (s % 2 ^ 32) (s / 2 ^ 32) = t at *
  have h3 : t / 2 ^ 16 % 2 ^ 16 = t / 2 ^ 16 := Nat.mod_eq_of_lt (by omega)
  rw [h3]
  have a' := addc_rep (w := 16) (k := 1) (by norm_num)
    (a := t % 2 ^ 16) (b := t / 2 ^ 16) (by omega) (by omega)
  have b' := addc_lt 16 (a := t % 2 ^ 16) (b := t / 2 ^ 16) (by omega) (by omega)
  exact ⟨b', a'.trans ((split 16 1 t (by norm_num)).trans (a.trans c))⟩

/-- The value before the complement stands for the buffer read as a number. -/
theorem core_rep (buf : Bytes) : ∃ t, t ≤ 65535 ∧ core buf = 65535 - t ∧ Rep t (le buf) := by
  obtain ⟨h1, h2, h3⟩ := mainLoop_rep buf 0 (by norm_num)
  obtain ⟨r, h4, h5, h6⟩ := tail_rep _ _ h1 h2
  obtain ⟨h7, h8⟩ := fold_rep r h4
  refine ⟨fold r, by omega, ?_, ?_⟩
  · unfold core
    simp only [Prod.mk.eta] at h6
    simp only [h6]
  · refine h8.trans (h5.trans ?_)
    rw [Nat.zero_add] at h3
    exact h3

theorem foldl_add (ws : List Nat) : ∀ (a : Nat), a ≤ 65535 → (∀ x ∈ ws, x ≤ 65535) →
    ws.foldl Spec.add a ≤ 65535 ∧ Rep (ws.foldl Spec.add a) (a + ws.sum) := by
  induction ws with
  | nil => intro a ha _; exact ⟨ha, Rep.rfl⟩
  | cons w ws ih =>
    intro a ha hw
    have hw0 := hw w (by simp)
    have hb : Spec.add a w ≤ 65535 ∧ Rep (Spec.add a w) (a + w) := by
      unfold Spec.add
      split
      · exact ⟨by omega, Rep.rfl⟩
      · exact ⟨by omega, by omega, by omega⟩
    obtain ⟨h1, h2⟩ := ih _ hb.1 (fun x hx => hw x (by simp [hx]))
    refine ⟨h1, h2.trans ?_⟩
    rw [List.sum_cons, ← Nat.add_assoc]
    exact hb.2.add Rep.rfl

theorem words_le (bs : Bytes) : (∀ x ∈ Spec.words bs, x ≤ 65535) ∧
    Rep (Spec.words bs).sum (256 * le bs) := by
  induction bs using Spec.words.induct with
  | case1 => exact ⟨by simp [Spec.words], Rep.rfl⟩
  | case2 a =>
    have := a.toNat_lt
    refine ⟨by simp [Spec.words]; omega, ?_⟩
    simp [Spec.words, le, Rep]
  | case3 a b bs ih =>
    have ha := a.toNat_lt
    have hb := b.toNat_lt
    refine ⟨?_, ?_⟩
    · intro x hx
      simp only [Spec.words, List.mem_cons] at hx
      rcases hx with rfl | hx
      · omega
      · exact ih.1 x hx
    · simp only [Spec.words, List.sum_cons, le]
      obtain ⟨h1, h2⟩ := ih.2
      refine ⟨?_, ?_⟩ <;> omega

theorem spec_rep (bs : Bytes) : Spec.sum bs ≤ 65535 ∧ Rep (Spec.sum bs) (256 * le bs) := by
  obtain ⟨h1, h2⟩ := words_le bs
  obtain ⟨h3, h4⟩ := foldl_add _ 0 (by omega) h1
  refine ⟨h3, h4.trans ?_⟩
  rw [Nat.zero_add]
  exact h2

theorem swap16_core (buf : Bytes) : swap16 (core buf) = Spec.checksum buf := by
  obtain ⟨t, h1, h2, h3⟩ := core_rep buf
  obtain ⟨h4, h5⟩ := spec_rep buf
  have e : swap16 t = Spec.sum buf := by
    refine Rep.unique ?_ (by unfold swap16; omega) h4
    obtain ⟨h3, h3'⟩ := h3
    obtain ⟨h5, h5'⟩ := h5
    have : Rep (swap16 t) (256 * t) := by
      have e : 256 * t = swap16 t + 65535 * (t / 256) := by
        unfold swap16
        omega
      refine ⟨by rw [e, Nat.add_mul_mod_self_left], ?_⟩
      unfold swap16
      omega
    obtain ⟨h6, h6'⟩ := this
    refine ⟨?_, by omega⟩
    rw [h6, h5, Nat.mul_mod, h3, ← Nat.mul_mod]
  rw [h2, Spec.checksum, ← e]
  unfold swap16
  omega

end Bm.Cksum
