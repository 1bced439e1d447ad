import Verif.Lemmas.PsaCksum
import Verif.Lemmas.Field
import Verif.Props.Cksum

/-!
# The extern `InternetChecksum` of psa_switch

C71.  `clear`, `add` and `get` compute the Internet checksum of RFC 1071 of the fields written one after
another; a received packet is correct when `get_verify` says so; `subtract` removes what `add` has
added, so a checksum can be updated without reading the unchanged data.

Three things keep C71 from holding as it stands in the PSA specification.  A field holding a negative
number makes the loops run forever (`C71_negative`).  Words of zeros in front of the data are skipped
by `subtract`, which matters for an object whose sum is 0 (`C71_subtract_zero`).  The update of a
checksum gives the other of the two forms of zero when the new data are all zero
(`C71_update_partial` says exactly when; that one is inherent in the specification, RFC 1624).
-/

namespace Bm.PsaCksum

open Bm.Spec Cksum Spec SSwitch

/-- **C71**, `add`: it ends, and the sum is the one's complement sum of the old one and the 16-bit words
of the data, whatever their number. -/
theorem C71_add {as : List Arg} {bs : Bytes} (h : Data as bs) (s s' : BitVec 16) :
    Runs s (.add as) s' ↔ s'.toNat = plus s.toNat bs := by
  obtain ⟨s1, h1, h2⟩ := runs_add h s
  have hs := s.isLt
  have hs1 := s1.isLt
  obtain ⟨h3, h4⟩ := plus_rep (s := s.toNat) (by omega) bs
  have e : s1.toNat = plus s.toNat bs :=
    Rep.unique ⟨h2.1.trans h4.1.symm, h2.2.trans h4.2.symm⟩ (by omega) h3
  refine ⟨fun hr => by rw [runs_det hr h1, e], fun he => ?_⟩
  rw [← e] at he
  rw [BitVec.eq_of_toNat_eq he]
  exact h1

/-- **C71**, `subtract`: it ends, in one state only; the sum is what the specification says, except that
it may be the other form of zero when it was 0 before. -/
theorem C71_subtract_partial {as : List Arg} {bs : Bytes} (h : Data as bs) (s : BitVec 16) :
    ∃ s', (∀ t, Runs s (.subtract as) t ↔ t = s') ∧
      s'.toNat % 65535 = minus s.toNat bs % 65535 ∧
      (s ≠ 0 → s'.toNat = minus s.toNat bs) := by
  obtain ⟨s1, h1, h2, h3, -⟩ := runs_sub h s
  have hs := s.isLt
  have hs1 := s1.isLt
  obtain ⟨h4, h5, h6⟩ := minus_rep _ s.toNat (by omega) (words_le bs).1
  change minus s.toNat bs ≤ 65535 at h4
  change (minus s.toNat bs + _) % 65535 = _ at h5
  change _ → minus s.toNat bs ≠ 0 at h6
  refine ⟨s1, fun t => ⟨fun ht => runs_det ht h1, fun ht => ht ▸ h1⟩, by omega, fun h0 => ?_⟩
  have hn : s.toNat ≠ 0 := fun e => h0 (BitVec.eq_of_toNat_eq (by simpa using e))
  have := h3 hn
  have := h6 hn
  omega

/-- **C71** A field list that does not make whole 16-bit words is an assertion failure. -/
theorem C71_unaligned (as : List Arg) (h : (bits as).length % 16 ≠ 0) (s s' : BitVec 16) :
    ¬ Runs s (.add as) s' ∧ ¬ Runs s (.subtract as) s' := by
  have e : concatenate as = none := by
    unfold concatenate
    simp only [Option.bind_eq_bind, Option.bind_eq_none_iff]
    intro st hst
    obtain ⟨-, h1⟩ := concatLoop_arith as st hst
    rw [if_neg (by omega)]
  refine ⟨?_, ?_⟩ <;> (rintro ⟨n, hn⟩; simp [Op.exec, e] at hn)

/-- **C71** over any sequence of calls of `add` and `subtract`: they all end, in one state only, the sum
is that of what was added less what was subtracted, modulo 65535; and 0 is told from 65535 once
something else than zeros was added. -/
theorem C71_history {ops : List Op} {cs : List Change} (h : List.Forall₂ Is ops cs) :
    ∀ s : BitVec 16, ∃ s', (∀ t, RunsAll s ops t ↔ t = s') ∧
      ((s'.toNat : Int) - s.toNat - (cs.map Change.amount).sum) % 65535 = 0 ∧
      ((s ≠ 0 ∨ ∃ bs, Change.plus bs ∈ cs ∧ NonZero bs) → s' ≠ 0) := by
  induction h with
  | nil =>
    intro s
    refine ⟨s, fun t => ⟨fun ht => by cases ht; rfl, fun ht => ht ▸ .nil s⟩, by simp, ?_⟩
    rintro (h | ⟨bs, h, -⟩)
    · exact h
    · cases h
  | @cons op c ops cs hoc _ ih =>
    intro s
    have hz : ∀ x : BitVec 16, x = 0 ↔ x.toNat = 0 := fun x =>
      ⟨fun e => by simp [e], fun e => BitVec.eq_of_toNat_eq (by simpa using e)⟩
    have key : ∃ s1, Runs s op s1 ∧ ((s1.toNat : Int) - s.toNat - c.amount) % 65535 = 0 ∧
        ((s ≠ 0 ∨ ∃ bs, c = .plus bs ∧ NonZero bs) → s1 ≠ 0) := by
      cases op with
      | clear => cases c <;> cases hoc
      | setState x => cases c <;> cases hoc
      | add as =>
        cases c with
        | minus bs => cases hoc
        | plus bs =>
          obtain ⟨s1, h1, h2, h3⟩ := runs_add hoc s
          refine ⟨s1, h1, by simp only [Change.amount]; omega, ?_⟩
          simp only [hz, ne_eq, Change.plus.injEq, exists_eq_left']
          have := words_sum_zero bs
          rintro (h | h)
          · omega
          · intro e
            exact absurd h (this.1 (by omega))
      | subtract as =>
        cases c with
        | plus bs => cases hoc
        | minus bs =>
          obtain ⟨s1, h1, h2, h3, -⟩ := runs_sub hoc s
          refine ⟨s1, h1, by simp only [Change.amount]; omega, ?_⟩
          simp only [hz, ne_eq]
          rintro (h | ⟨_, h, -⟩)
          · exact h3 h
          · cases h
    obtain ⟨s1, h1, h2, h3⟩ := key
    obtain ⟨s2, h4, h5, h6⟩ := ih s1
    refine ⟨s2, fun t => ⟨?_, ?_⟩, ?_, ?_⟩
    · intro ht
      cases ht with
      | cons ha hb =>
        cases runs_det ha h1
        exact (h4 t).1 hb
    · intro ht
      exact .cons h1 ((h4 t).2 ht)
    · simp only [List.map_cons, List.sum_cons]
      omega
    · rintro (h | ⟨bs, h, hn⟩)
      · exact h6 (.inl (h3 (.inl h)))
      · rcases List.mem_cons.1 h with h | h
        · exact h6 (.inl (h3 (.inr ⟨bs, h.symm, hn⟩)))
        · exact h6 (.inr ⟨bs, h, hn⟩)

theorem set_exact {dst : Arg} (hd : dst.field.Shape) (hi : dst.inv = false)
    (hu : dst.field.isSigned = false) {v : Nat} (hv : v < 2 ^ dst.field.nbits) :
    ∃ f, dst.field.set dst.inv v = some f ∧ f.Shape ∧ f.kind = dst.field.kind ∧ f.value = v := by
  rw [hi]
  obtain ⟨f, e, h1, h2, -, -, -, -, -, -, h3, -⟩ := Field.set_spec hd v
  have hf : dst.field.kind.Fits v := by
    unfold Kind.Fits Kind.lowest Kind.highest Field.kind
    have : ((v : Nat) : Int) < 2 ^ dst.field.nbits := by exact_mod_cast hv
    simp only [hu, Bool.false_eq_true, if_false]
    omega
  obtain ⟨h4, h5⟩ := h3 (by unfold Field.Odd; simp [hu])
  refine ⟨f, e, h1, h2, ?_⟩
  unfold Kind.Assigned at h5
  by_cases hs : dst.field.kind.saturating = true
  · rw [if_pos hs] at h5
    exact h5.2.2 hf
  · rw [if_neg hs] at h5
    obtain ⟨-, k, hk⟩ := h5
    unfold Kind.Fits Kind.lowest Kind.highest Field.kind at hf h4
    simp only [hu, Bool.false_eq_true, if_false] at hf h4
    simp only [Field.kind] at hk
    have hp : (0 : Int) < 2 ^ dst.field.nbits := by positivity
    generalize (2 : Int) ^ dst.field.nbits = m at *
    have : k = 0 := by
      by_contra hk0
      rcases lt_or_gt_of_ne hk0 with h | h
      · have : m * k ≤ m * (-1) := mul_le_mul_of_nonneg_left (by omega) (by omega)
        omega
      · have : m * 1 ≤ m * k := mul_le_mul_of_nonneg_left (by omega) (by omega)
        omega
    rw [this] at hk
    omega

/-- **C71** `clear`, `add` and `get`: the Internet checksum of the data, the one C35 is about, in an
unsigned field of 16 bits or more. -/
theorem C71_checksum {as : List Arg} {bs : Bytes} (h : Data as bs) (s s' : BitVec 16)
    (hr : RunsAll s [.clear, .add as] s') {dst : Arg} (hd : dst.field.Shape) (hi : dst.inv = false)
    (hu : dst.field.isSigned = false) (hw : 16 ≤ dst.field.nbits) :
    ∃ f, get s' dst = some f ∧ f.Shape ∧ f.kind = dst.field.kind ∧
      f.value = Cksum.Spec.checksum bs ∧ f.value = cksum16 bs := by
  have e : s'.toNat = Cksum.Spec.sum bs := by
    cases hr with
    | cons h1 h2 =>
      cases h2 with
      | cons h2 h3 =>
        cases h3
        obtain ⟨n, h1⟩ := h1
        simp only [Op.exec, Option.some.injEq] at h1
        subst h1
        exact (C71_add h 0 s').1 h2
  have hle := (spec_rep bs).1
  have e2 : (~~~s').toNat = Cksum.Spec.checksum bs := by
    rw [BitVec.toNat_not, e]
    rfl
  have hp : (2 : Nat) ^ 16 ≤ 2 ^ dst.field.nbits := Nat.pow_le_pow_right (by omega) hw
  obtain ⟨f, h1, h2, h3, h4⟩ := set_exact hd hi hu (v := (~~~s').toNat)
    (by have := (~~~s').isLt; omega)
  refine ⟨f, h1, h2, h3, by rw [h4, e2], by rw [h4, e2, C35_checksum]⟩

/-- **C71** The calls of `C71_checksum` end. -/
theorem C71_ends {as : List Arg} {bs : Bytes} (h : Data as bs) (s : BitVec 16) :
    ∃ s', RunsAll s [.clear, .add as] s' := by
  obtain ⟨s', h1, -⟩ := runs_add h 0
  exact ⟨s', .cons ⟨0, rfl⟩ (.cons h1 (.nil _))⟩

/-- **C71** `get_verify` compares with the checksum; `get_state` and `set_state` save and restore the
sum. -/
theorem C71_verify (s : BitVec 16) {dst equ : Arg} (hd : dst.field.Shape) (hi : dst.inv = false)
    (hu : dst.field.isSigned = false) (hw : 1 ≤ dst.field.nbits) (ha : equ.field.arith = true)
    (h0 : 0 ≤ contents equ) (h1 : contents equ < 65536) :
    ∃ f, getVerify s dst equ = some f ∧
      f.value = if contents equ = 65535 - (s.toNat : Int) then 1 else 0 := by
  have hs := s.isLt
  have hp : (2 : Nat) ^ 1 ≤ 2 ^ dst.field.nbits := Nat.pow_le_pow_right (by omega) hw
  unfold getVerify
  rw [if_pos ha, value_eq]
  have e : getU16 (contents equ) = some (BitVec.ofNat 16 (contents equ).toNat) := by
    unfold getU16
    rw [if_pos ⟨h0, by omega⟩]
  simp only [e, Option.bind_eq_bind, Option.bind_some]
  have hc : (BitVec.ofNat 16 (contents equ).toNat = ~~~s) ↔ (contents equ) = 65535 - (s.toNat : Int) := by
    rw [← BitVec.toNat_inj, BitVec.toNat_ofNat, BitVec.toNat_not]
    omega
  obtain ⟨f, h2, -, -, h4⟩ := set_exact hd hi hu
    (v := if BitVec.ofNat 16 (contents equ).toNat = ~~~s then 1 else 0) (by split <;> omega)
  refine ⟨f, ?_, ?_⟩
  · rw [← h2]
    split <;> rfl
  · rw [h4]
    simp only [hc]
    split <;> rfl

theorem C71_state (s t : BitVec 16) {dst : Arg} (hd : dst.field.Shape) (hi : dst.inv = false)
    (hu : dst.field.isSigned = false) (hw : 16 ≤ dst.field.nbits) :
    ∃ f, getState s dst = some f ∧ ∀ u, Runs t (.setState f.value) u ↔ u = s := by
  have hs := s.isLt
  have hp : (2 : Nat) ^ 16 ≤ 2 ^ dst.field.nbits := Nat.pow_le_pow_right (by omega) hw
  obtain ⟨f, h2, -, -, h4⟩ := set_exact hd hi hu (v := s.toNat) (by omega)
  refine ⟨f, h2, fun u => ?_⟩
  have e : getU16 f.value = some s := by
    unfold getU16
    rw [h4, if_pos (by omega)]
    simp
  refine ⟨?_, ?_⟩
  · rintro ⟨n, hn⟩
    simp only [Op.exec, e, Option.some.injEq] at hn
    exact hn.symm
  · rintro rfl
    exact ⟨0, e⟩

/-- **C71**, incremental update: from the checksum of `a old b`, subtract `old` and add `new`.  The
result is the checksum of `a new b`, except when `a new b` are all zeros and `old` is not: then the sum is
65535 instead of 0. -/
theorem C71_update_partial {a old new b : Bytes} {asOld asNew : List Arg} (ha : a.length % 2 = 0)
    (ho : Data asOld old) (hn : Data asNew new) {s : BitVec 16}
    (hs : s.toNat = Cksum.Spec.sum (a ++ old ++ b)) :
    ∃ s', (∀ t, RunsAll s [.subtract asOld, .add asNew] t ↔ t = s') ∧
      (NonZero (a ++ new ++ b) ∨ ¬ NonZero old → s'.toNat = Cksum.Spec.sum (a ++ new ++ b)) ∧
      (¬ NonZero (a ++ new ++ b) → NonZero old →
        s'.toNat = 65535 ∧ Cksum.Spec.sum (a ++ new ++ b) = 0) := by
  have hw : ∀ m : Bytes, m.length % 2 = 0 → (Cksum.Spec.words (a ++ m ++ b)).sum =
      (Cksum.Spec.words a).sum + (Cksum.Spec.words m).sum + (Cksum.Spec.words b).sum := by
    intro m hm
    rw [words_append (a ++ m) b (by simp only [List.length_append]; omega), words_append a m ha]
    simp only [List.sum_append]
  have hz := words_sum_zero
  obtain ⟨s1, h1, h2, h3, h4⟩ := runs_sub ho s
  obtain ⟨s2, h5, h6, h7⟩ := runs_add hn s1
  obtain ⟨r1, r2, r3⟩ := plus_rep (s := 0) (by omega) (a ++ old ++ b)
  obtain ⟨q1, q2, q3⟩ := plus_rep (s := 0) (by omega) (a ++ new ++ b)
  rw [hw old ho.2.2, show plus 0 (a ++ old ++ b) = Cksum.Spec.sum (a ++ old ++ b) by rfl, ← hs]
    at r2 r3
  rw [hw new hn.2.2] at q2 q3
  rw [show plus 0 (a ++ new ++ b) = Cksum.Spec.sum (a ++ new ++ b) by rfl] at q1 q2 q3
  have hzo := hz old
  have hza := hz (a ++ new ++ b)
  rw [hw new hn.2.2] at hza
  have hsl := s2.isLt
  have hss := s.isLt
  have hs1 : s1 = s → s1.toNat = s.toNat := fun e => by rw [e]
  refine ⟨s2, fun t => ⟨?_, ?_⟩, ?_, ?_⟩
  · intro ht
    cases ht with
    | cons hx hy =>
      cases runs_det hx h1
      cases hy with
      | cons hy hz =>
        cases runs_det hy h5
        cases hz
        rfl
  · rintro rfl
    exact .cons h1 (.cons h5 (.nil _))
  · intro hc
    have hc : (Cksum.Spec.words a).sum + (Cksum.Spec.words new).sum + (Cksum.Spec.words b).sum ≠ 0 ∨
        (Cksum.Spec.words old).sum = 0 := by
      rcases hc with hc | hc
      · exact .inl fun e => (hza.1 e) hc
      · exact .inr (hzo.2 hc)
    by_cases ho0 : (Cksum.Spec.words old).sum = 0
    · have := hs1 (h4 ho0)
      omega
    · omega
  · intro hc hc'
    have e1 := hza.2 hc
    have e2 : (Cksum.Spec.words old).sum ≠ 0 := fun e => (hzo.1 e) hc'
    omega

/-- **C71** What the extern is for: over data that hold their checksum `get` gives 0. -/
theorem C71_receiver {as : List Arg} (a b : Bytes) (ha : a.length % 2 = 0)
    (h : Data as (a ++ cksum16Bytes (a ++ [0, 0] ++ b) ++ b)) (s s' : BitVec 16)
    (hr : RunsAll s [.clear, .add as] s') : s' = 0xffff := by
  cases hr with
  | cons h1 h2 =>
    cases h2 with
    | cons h2 h3 =>
      cases h3
      obtain ⟨n, h1⟩ := h1
      simp only [Op.exec, Option.some.injEq] at h1
      subst h1
      have := (C71_add h 0 s').1 h2
      have h2 := C35_receiver a b ha
      apply BitVec.eq_of_toNat_eq
      rw [this]
      exact h2

/-! ### What the code does against the specification -/

/-- **C71 fails** for negative numbers: given one field, with a negative number, `add` and `subtract` do
not end, in any state. -/
theorem C71_negative (a : Arg) (ha : contents a < 0) (s s' : BitVec 16) :
    ¬ Runs s (.add [a]) s' ∧ ¬ Runs s (.subtract [a]) s' := by
  have hx : ∀ x, concatenate [a] = some x → x < 0 := by
    intro x e
    simp only [concatenate, concatLoop, concatStep, Option.bind_eq_bind, Option.bind_some,
      Data.add] at e
    obtain ⟨st, e1, e2⟩ := Option.bind_eq_some_iff.1 e
    by_cases h : a.field.arith = true
    · rw [if_pos h] at e1
      injection e1 with e1
      by_cases h2 : st.1 % 16 = 0
      · rw [if_pos h2] at e2
        injection e2 with e2
        rw [← e2, ← e1]
        rw [← value_eq] at ha
        simpa using ha
      · rw [if_neg h2] at e2
        cases e2
    · rw [if_neg h] at e1
      cases e1
  refine ⟨?_, ?_⟩ <;>
  · rintro ⟨n, hn⟩
    simp only [Op.exec, Option.bind_eq_bind] at hn
    obtain ⟨x, e1, e2⟩ := Option.bind_eq_some_iff.1 hn
    rw [loop_neg n x s (hx x e1)] at e2
    cases e2

namespace Ex

/-- A field of `w` bits. -/
def field (w : Nat) (signed : Bool) (v : Int) : Option Field := do
  (← Field.mk' w true signed false false false).set false v

/-- A signed field of 16 bits is assigned -1, and is whole words. -/
example : ∃ f, field 16 true (-1) = some f ∧ f.arith = true ∧ f.nbits % 16 = 0 ∧
    contents ⟨f, false⟩ < 0 := ⟨_, rfl, rfl, rfl, by decide⟩

/-- **C71 fails** for `subtract` on an object whose sum is 0: a word of zeros. -/
theorem C71_subtract_zero : ∃ (f : Field) (s' : BitVec 16), field 16 false 0 = some f ∧
    Data [⟨f, false⟩] [0, 0] ∧ Runs 0 (.subtract [⟨f, false⟩]) s' ∧ s'.toNat ≠ minus 0 [0, 0] := by
  refine ⟨_, 0, rfl, ⟨?_, ?_, ?_⟩, ⟨0, ?_⟩, ?_⟩
  · unfold Plain
    decide
  all_goals decide

/-- Fields of 4, 12 and 16 bits: the data `0x45 0x00 0xff 0xff`. -/
def args : Option (List Arg) := do
  return [⟨← field 4 false 4, false⟩, ⟨← field 12 false 0x500, false⟩, ⟨← field 16 false 0xffff, false⟩]

example : ∃ as, args = some as ∧ Data as [0x45, 0, 0xff, 0xff] ∧
    Runs 0 (.add as) 0x4500 ∧ Runs 0x4500 (.subtract as) 0xffff ∧
    Runs 0 (.subtract as) 0xbaff := by
  refine ⟨_, rfl, ⟨?_, ?_, ?_⟩, ⟨2, ?_⟩, ⟨2, ?_⟩, ⟨2, ?_⟩⟩
  · unfold Plain
    decide
  all_goals decide

/-- The exception of `C71_update_partial`: the checksum of `0x0001`, updated to that of `0x0000`. -/
example : ∃ f g : Field, field 16 false 1 = some f ∧ field 16 false 0 = some g ∧
    Data [⟨f, false⟩] [0, 1] ∧ Data [⟨g, false⟩] [0, 0] ∧ Cksum.Spec.sum [0, 1] = 1 ∧
    RunsAll 1 [.subtract [⟨f, false⟩], .add [⟨g, false⟩]] 0xffff ∧ Cksum.Spec.sum [0, 0] = 0 := by
  refine ⟨_, _, rfl, rfl, ⟨?_, ?_, ?_⟩, ⟨?_, ?_, ?_⟩, ?_, .cons (s1 := 0xffff) ⟨1, ?_⟩ (.cons ⟨0, ?_⟩ (.nil _)), ?_⟩
  · unfold Plain
    decide
  rotate_left 2
  · unfold Plain
    decide
  all_goals decide

end Ex

end Bm.PsaCksum
