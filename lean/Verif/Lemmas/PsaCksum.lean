import Verif.Spec.PsaCksum
import Verif.Lemmas.Cksum
import Verif.Lemmas.Bits

/-!
# The extern `InternetChecksum`: arithmetic modulo `2^16 - 1`
-/

namespace Bm.PsaCksum

open Bm.Spec Cksum Spec SSwitch

theorem onesSum_toNat (x y : BitVec 16) : (onesSum x y).toNat = Cksum.Spec.add x.toNat y.toNat := by
  have hx := x.isLt
  have hy := y.isLt
  unfold onesSum Cksum.Spec.add
  simp only [BitVec.toNat_ofNat]
  split <;> split <;> omega

theorem add_rep {a b : Nat} (ha : a ≤ 65535) (hb : b ≤ 65535) :
    Cksum.Spec.add a b ≤ 65535 ∧ Rep (Cksum.Spec.add a b) (a + b) := by
  unfold Cksum.Spec.add
  split
  · exact ⟨by omega, Rep.rfl⟩
  · exact ⟨by omega, by omega, by omega⟩

theorem pow_mod (k : Nat) : 2 ^ (16 * k) % 65535 = 1 := by
  rw [Nat.pow_mul, show 2 ^ 16 = 65536 by rfl, Nat.pow_mod]
  simp

theorem pow_wrap (n : Nat) : 2 ^ (n % 2 ^ 16) % 65535 = 2 ^ n % 65535 := by
  conv_rhs => rw [← Nat.div_add_mod n (2 ^ 16), Nat.pow_add, Nat.mul_mod]
  rw [show 2 ^ 16 * (n / 2 ^ 16) = 16 * (4096 * (n / 2 ^ 16)) by omega, pow_mod]
  simp

theorem Rep.mul_pow {v a b : Nat} (h : 2 ^ a % 65535 = 2 ^ b % 65535) :
    Rep (v * 2 ^ a) (v * 2 ^ b) := by
  refine ⟨by rw [Nat.mul_mod, h, ← Nat.mul_mod], ?_⟩
  simp

theorem bits_length_cons (a : Arg) (as : List Arg) :
    (bits (a :: as)).length = a.field.nbits + (bits as).length := by
  simp [bits]

theorem value_eq (a : Arg) : a.value = contents a := rfl

theorem concatLoop_spec : ∀ as : List Arg, (∀ a ∈ as, Plain a) → ∃ n : Nat,
    concatLoop as = some ((bits as).length % 2 ^ 16, (n : Int)) ∧ Rep n (bitsNat (bits as))
  | [], _ => ⟨0, by simp [concatLoop, bits], Rep.rfl⟩
  | a :: as, h => by
    obtain ⟨n, e, hr⟩ := concatLoop_spec as fun b hb => h b (by simp [hb])
    obtain ⟨h1, h2, h3⟩ := h a (by simp)
    obtain ⟨v, hv⟩ := Int.eq_ofNat_of_zero_le h2
    have hv' : v < 2 ^ a.field.nbits := by
      rw [hv] at h3
      exact_mod_cast h3
    refine ⟨n + v * 2 ^ ((bits as).length % 2 ^ 16), ?_, ?_⟩
    · simp only [concatLoop, e, Option.bind_eq_bind, Option.bind_some, concatStep]
      rw [if_pos h1, bits_length_cons, value_eq, hv]
      simp only [Data.add, Option.some.injEq, Prod.mk.injEq]
      refine ⟨by omega, by push_cast; rfl⟩
    · have e2 : bitsNat (bits (a :: as)) = bitsNat (bits as) + v * 2 ^ (bits as).length := by
        rw [bits, List.flatMap_cons, bitsNat_append, bitsNat_natBits, hv]
        simp only [Int.ofNat_eq_natCast, Int.toNat_natCast]
        rw [Nat.mod_eq_of_lt hv']
        change v * 2 ^ (bits as).length + bitsNat (bits as) = _
        omega
      rw [e2]
      exact hr.add (Rep.mul_pow (pow_wrap _))

theorem concatLoop_arith : ∀ (as : List Arg) (st), concatLoop as = some st →
    (∀ a ∈ as, a.field.arith = true) ∧ st.1 = (bits as).length % 2 ^ 16
  | [], st, e => by simp [concatLoop] at e; subst e; simp [bits]
  | a :: as, st, e => by
    simp only [concatLoop, Option.bind_eq_bind] at e
    obtain ⟨st1, e1, e2⟩ := Option.bind_eq_some_iff.1 e
    obtain ⟨h1, h2⟩ := concatLoop_arith as st1 e1
    unfold concatStep at e2
    by_cases ha : a.field.arith = true
    · rw [if_pos ha] at e2
      injection e2 with e2
      subst e2
      refine ⟨by intro b hb; rcases List.mem_cons.1 hb with rfl | hb; exacts [ha, h1 b hb], ?_⟩
      rw [bits_length_cons]
      simp only [h2]
      omega
    · rw [if_neg ha] at e2
      cases e2

theorem concatenate_spec {as : List Arg} (h : ∀ a ∈ as, Plain a) (hl : (bits as).length % 16 = 0) :
    ∃ n : Nat, concatenate as = some (n : Int) ∧ Rep n (bitsNat (bits as)) := by
  obtain ⟨n, e, hr⟩ := concatLoop_spec as h
  refine ⟨n, ?_, hr⟩
  simp only [concatenate, e, Option.bind_eq_bind, Option.bind_some]
  rw [if_pos (by omega)]
  rfl

theorem chunk_nat (n : Nat) : chunk (n : Int) = some (BitVec.ofNat 16 n) := by
  have e : Data.bitAnd (n : Int) 0xffff = ((n % 65536 : Nat) : Int) := by
    unfold Data.bitAnd
    have : Int.land (n : Int) ((65535 : Nat) : Int) = ((n &&& 65535 : Nat) : Int) := rfl
    rw [show (0xffff : Int) = ((65535 : Nat) : Int) by rfl, this,
      show 65535 = 2 ^ 16 - 1 by rfl, Nat.and_two_pow_sub_one_eq_mod]
  unfold chunk getU16
  rw [e, if_pos (by omega)]
  congr 1
  apply BitVec.eq_of_toNat_eq
  simp only [BitVec.toNat_ofNat, Int.toNat_natCast]
  omega

theorem loop_add (n : Nat) : ∀ s : BitVec 16, ∃ k s', loop false k (n : Int) s = some s' ∧
    Rep s'.toNat (s.toNat + n) := by
  induction n using Nat.strong_induction_on with
  | h n ih =>
    intro s
    by_cases h0 : n = 0
    · subst h0
      exact ⟨0, s, by simp [loop], Rep.rfl⟩
    · obtain ⟨k, s', e, hr⟩ := ih (n / 65536) (by omega) (onesSum s (BitVec.ofNat 16 n))
      refine ⟨k + 1, s', ?_, hr.trans ?_⟩
      · simp only [loop, Option.bind_eq_bind]
        rw [if_neg (by omega), chunk_nat]
        simpa [operand] using e
      · rw [onesSum_toNat]
        have h1 := (add_rep (a := s.toNat) (b := (BitVec.ofNat 16 n).toNat)
          (by have := s.isLt; omega) (by have := (BitVec.ofNat 16 n).isLt; omega)).2
        have h2 : (BitVec.ofNat 16 n).toNat = n % 65536 := by simp
        rw [h2] at h1 ⊢
        obtain ⟨h3, h4⟩ := h1
        refine ⟨?_, ?_⟩ <;> omega

theorem loop_sub (n : Nat) : ∀ s : BitVec 16, ∃ k s', loop true k (n : Int) s = some s' ∧
    (s'.toNat + n) % 65535 = s.toNat % 65535 ∧ (s.toNat ≠ 0 → s'.toNat ≠ 0) ∧
    (n = 0 → s' = s) := by
  induction n using Nat.strong_induction_on with
  | h n ih =>
    intro s
    by_cases h0 : n = 0
    · subst h0
      exact ⟨0, s, by simp [loop], rfl, id, fun _ => rfl⟩
    · obtain ⟨k, s', e, hr, hz, -⟩ := ih (n / 65536) (by omega) (onesSum s (~~~BitVec.ofNat 16 n))
      have hs := s.isLt
      have h2 : (~~~BitVec.ofNat 16 n).toNat = 65535 - n % 65536 := by simp
      have h1 := (add_rep (a := s.toNat) (b := (~~~BitVec.ofNat 16 n).toNat)
        (by omega) (by omega)).2
      rw [onesSum_toNat, h2] at hr hz
      rw [h2] at h1
      obtain ⟨h3, h4⟩ := h1
      refine ⟨k + 1, s', ?_, ?_, ?_, fun h => absurd h h0⟩
      · simp only [loop, Option.bind_eq_bind]
        rw [if_neg (by omega), chunk_nat]
        simpa [operand] using e
      · omega
      · intro h
        exact hz (by omega)

theorem loop_mono {sub : Bool} : ∀ {k : Nat} {x : Int} {s s' : BitVec 16}, loop sub k x s = some s' →
    ∀ j, loop sub (k + j) x s = some s'
  | 0, x, s, s', e, j => by
    unfold loop at e
    by_cases h : x = 0
    · rw [if_pos h] at e
      cases j <;> (simp only [Nat.zero_add, loop, if_pos h]; exact e)
    · rw [if_neg h] at e
      cases e
  | k + 1, x, s, s', e, j => by
    rw [show k + 1 + j = (k + j) + 1 by omega]
    simp only [loop, Option.bind_eq_bind] at e ⊢
    by_cases h : x = 0
    · rw [if_pos h] at e ⊢
      exact e
    · rw [if_neg h] at e ⊢
      obtain ⟨d, e1, e2⟩ := Option.bind_eq_some_iff.1 e
      exact Option.bind_eq_some_iff.2 ⟨d, e1, loop_mono e2 j⟩

theorem loop_det {sub : Bool} {k j : Nat} {x : Int} {s a b : BitVec 16} (h1 : loop sub k x s = some a)
    (h2 : loop sub j x s = some b) : a = b := by
  have e1 := loop_mono h1 j
  have e2 := loop_mono h2 k
  rw [Nat.add_comm, e1] at e2
  exact Option.some.inj e2

theorem loop_neg {sub : Bool} : ∀ (k : Nat) (x : Int) (s : BitVec 16), x < 0 → loop sub k x s = none
  | 0, x, s, h => by simp only [loop]; rw [if_neg (by omega)]
  | k + 1, x, s, h => by
    simp only [loop, Option.bind_eq_bind]
    rw [if_neg (by omega), Option.bind_eq_none_iff]
    intro d _
    exact loop_neg k _ _ (by omega)

theorem runs_det {s a b : BitVec 16} {op : Op} (h1 : Runs s op a) (h2 : Runs s op b) : a = b := by
  obtain ⟨k, h1⟩ := h1
  obtain ⟨j, h2⟩ := h2
  cases op with
  | clear => simp only [Op.exec] at h1 h2; rw [h1] at h2; exact Option.some.inj h2
  | setState x => simp only [Op.exec] at h1 h2; rw [h1] at h2; exact Option.some.inj h2
  | add as =>
    simp only [Op.exec, Option.bind_eq_bind] at h1 h2
    obtain ⟨x, e1, e2⟩ := Option.bind_eq_some_iff.1 h1
    obtain ⟨y, e3, e4⟩ := Option.bind_eq_some_iff.1 h2
    rw [e1] at e3
    cases e3
    exact loop_det e2 e4
  | subtract as =>
    simp only [Op.exec, Option.bind_eq_bind] at h1 h2
    obtain ⟨x, e1, e2⟩ := Option.bind_eq_some_iff.1 h1
    obtain ⟨y, e3, e4⟩ := Option.bind_eq_some_iff.1 h2
    rw [e1] at e3
    cases e3
    exact loop_det e2 e4

/-- The number written by whole words. -/
theorem words_rep (bs : Bytes) : bs.length % 2 = 0 →
    Rep (bitsNat (bytesBits bs)) (Cksum.Spec.words bs).sum := by
  induction bs using Cksum.Spec.words.induct with
  | case1 => intro _; exact Rep.rfl
  | case2 a => intro h; simp at h
  | case3 a b bs ih =>
    intro h
    simp only [List.length_cons] at h
    have hr := ih (by omega)
    simp only [Cksum.Spec.words, List.sum_cons, bytesBits_cons, bitsNat_append, bitsNat_byteBits,
      List.length_append, byteBits_length, bytesBits_length]
    have e : a.toNat * 2 ^ (8 + 8 * bs.length) + (b.toNat * 2 ^ (8 * bs.length) +
        bitsNat (bytesBits bs)) =
        (256 * a.toNat + b.toNat) * 2 ^ (16 * (bs.length / 2)) + bitsNat (bytesBits bs) := by
      rw [show 16 * (bs.length / 2) = 8 * bs.length by omega, Nat.pow_add]
      ring
    rw [e]
    refine Rep.add ?_ hr
    have := Rep.mul_pow (v := 256 * a.toNat + b.toNat) (a := 16 * (bs.length / 2)) (b := 0)
      (by rw [pow_mod]; rfl)
    simpa using this

theorem data_rep {as : List Arg} {bs : Bytes} (h : Data as bs) :
    ∃ n : Nat, concatenate as = some (n : Int) ∧ Rep n (Cksum.Spec.words bs).sum := by
  obtain ⟨h1, h2, h3⟩ := h
  obtain ⟨n, e, hr⟩ := concatenate_spec h1 (by rw [h2, bytesBits_length]; omega)
  refine ⟨n, e, hr.trans ?_⟩
  rw [h2]
  exact words_rep bs h3

theorem runs_add {as : List Arg} {bs : Bytes} (h : Data as bs) (s : BitVec 16) :
    ∃ s', Runs s (.add as) s' ∧ Rep s'.toNat (s.toNat + (Cksum.Spec.words bs).sum) := by
  obtain ⟨n, e, hr⟩ := data_rep h
  obtain ⟨k, s', e1, hr1⟩ := loop_add n s
  exact ⟨s', ⟨k, by simp [Op.exec, e, e1]⟩, hr1.trans (Rep.rfl.add hr)⟩

theorem runs_sub {as : List Arg} {bs : Bytes} (h : Data as bs) (s : BitVec 16) :
    ∃ s', Runs s (.subtract as) s' ∧
      (s'.toNat + (Cksum.Spec.words bs).sum) % 65535 = s.toNat % 65535 ∧
      (s.toNat ≠ 0 → s'.toNat ≠ 0) ∧ ((Cksum.Spec.words bs).sum = 0 → s' = s) := by
  obtain ⟨n, e, hr⟩ := data_rep h
  obtain ⟨k, s', e1, h1, h2, h3⟩ := loop_sub n s
  obtain ⟨r1, r2⟩ := hr
  exact ⟨s', ⟨k, by simp [Op.exec, e, e1]⟩, by omega, h2, fun h => h3 (r2.2 h)⟩

theorem plus_rep {s : Nat} (hs : s ≤ 65535) (bs : Bytes) :
    plus s bs ≤ 65535 ∧ Rep (plus s bs) (s + (Cksum.Spec.words bs).sum) :=
  foldl_add _ s hs (words_le bs).1

theorem minus_rep (ws : List Nat) : ∀ s : Nat, s ≤ 65535 → (∀ x ∈ ws, x ≤ 65535) →
    ws.foldl (fun s w => Cksum.Spec.add s (65535 - w)) s ≤ 65535 ∧
    (ws.foldl (fun s w => Cksum.Spec.add s (65535 - w)) s + ws.sum) % 65535 = s % 65535 ∧
    (s ≠ 0 → ws.foldl (fun s w => Cksum.Spec.add s (65535 - w)) s ≠ 0) := by
  induction ws with
  | nil => intro s hs _; exact ⟨hs, by simp, id⟩
  | cons w ws ih =>
    intro s hs hw
    have hw0 := hw w (by simp)
    obtain ⟨h1, h2, h3⟩ := add_rep hs (b := 65535 - w) (by omega)
    obtain ⟨h4, h5, h6⟩ := ih _ h1 (fun x hx => hw x (by simp [hx]))
    simp only [List.foldl_cons, List.sum_cons]
    exact ⟨h4, by omega, fun h => h6 (by omega)⟩

theorem toNat_eq_zero (a : UInt8) : a.toNat = 0 ↔ a = 0 := by
  rw [← UInt8.toNat_inj]
  rfl

theorem words_sum_zero (bs : Bytes) : (Cksum.Spec.words bs).sum = 0 ↔ ¬ NonZero bs := by
  unfold NonZero
  induction bs using Cksum.Spec.words.induct with
  | case1 => simp [Cksum.Spec.words]
  | case2 a =>
    have := toNat_eq_zero a
    simp only [Cksum.Spec.words, List.sum_cons, List.sum_nil, List.mem_singleton, exists_eq_left,
      not_not, ← this]
    omega
  | case3 a b bs ih =>
    have h1 := toNat_eq_zero a
    have h2 := toNat_eq_zero b
    simp only [Cksum.Spec.words, List.sum_cons, List.mem_cons, exists_eq_or_imp, not_or, not_not,
      ← h1, ← h2, ← ih]
    omega

end Bm.PsaCksum
