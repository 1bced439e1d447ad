import Verif.Model.Cli
import Verif.Lemmas.KeyBytes

/-!
# Lemmas about the command line tool: numbers, strings, values
-/

namespace Bm.Cli
open Bm.Spec Bm.Cli.Spec

/-! ## Digits -/

theorem digit_spec {c : Char} {d : Nat} (h : digit c = some d) : d < 36 ∧ (lower[d]? = some c ∨ upper[d]? = some c) := by
  have hc : c = Char.ofNat c.toNat := (Char.ofNat_toNat c).symm
  have h1 : ∀ d < 10, lower[d]? = some (Char.ofNat (48 + d)) := by decide
  have h2 : ∀ d < 26, lower[d + 10]? = some (Char.ofNat (97 + d)) := by decide
  have h3 : ∀ d < 26, upper[d + 10]? = some (Char.ofNat (65 + d)) := by decide
  unfold digit at h
  split at h
  · next r =>
    cases h
    refine ⟨by omega, .inl ?_⟩
    rw [h1 _ (by omega), show 48 + (c.toNat - 48) = c.toNat by omega, ← hc]
  · split at h
    · next r =>
      cases h
      refine ⟨by omega, .inl ?_⟩
      rw [show c.toNat - 87 = (c.toNat - 97) + 10 by omega, h2 _ (by omega), show 97 + (c.toNat - 97) = c.toNat by omega, ← hc]
    · split at h
      · next r =>
        cases h
        refine ⟨by omega, .inr ?_⟩
        rw [show c.toNat - 55 = (c.toNat - 65) + 10 by omega, h3 _ (by omega), show 65 + (c.toNat - 65) = c.toNat by omega, ← hc]
      · cases h

theorem spec_digit {c : Char} {d : Nat} (h : lower[d]? = some c ∨ upper[d]? = some c) : digit c = some d := by
  have hd : d < 36 := by
    rcases h with h | h
    · exact (List.getElem?_eq_some_iff.1 h).1
    · exact (List.getElem?_eq_some_iff.1 h).1
  have h1 : ∀ d < 36, (lower[d]?).bind digit = some d := by decide
  have h2 : ∀ d < 36, (upper[d]?).bind digit = some d := by decide
  rcases h with h | h
  · have := h1 d hd
    rwa [h] at this
  · have := h2 d hd
    rwa [h] at this

/-- Characters of numbers without sign. -/
def Plain (c : Char) : Prop := (digit c).isSome = true ∨ c = '_'

instance (c : Char) : Decidable (Plain c) := by unfold Plain; infer_instance

theorem digits_snoc {b : Nat} {c : Char} {d : Nat} (hd : digit c = some d) (hb : d < b) (hc : c ≠ '_') :
    ∀ (t : Text) (acc : Nat) (u : Bool) (n : Nat), digits b acc u t = some n → digits b acc u (t ++ [c]) = some (n * b + d)
  | [], acc, u, n, h => by
    simp only [digits] at h
    split at h
    · cases h
    · cases h
      simp [digits, hc, hd, hb]
  | x :: t, acc, u, n, h => by
    rw [List.cons_append]
    simp only [digits] at h ⊢
    split at h
    · next hx =>
      rw [if_pos hx]
      split at h
      · cases h
      · next hu =>
        rw [if_neg hu]
        exact digits_snoc hd hb hc t _ _ _ h
    · next hx =>
      rw [if_neg hx]
      cases hy : digit x with
      | none => rw [hy] at h; cases h
      | some y =>
        rw [hy] at h
        simp only at h ⊢
        split at h
        · next hl =>
          rw [if_pos hl]
          exact digits_snoc hd hb hc t _ _ _ h
        · cases h

theorem digits_gap {b : Nat} {c : Char} {d : Nat} (hd : digit c = some d) (hb : d < b) (hc : c ≠ '_') :
    ∀ (t : Text) (acc : Nat) (u : Bool) (n : Nat), digits b acc u t = some n →
      digits b acc u (t ++ ['_', c]) = some (n * b + d)
  | [], acc, u, n, h => by
    simp only [digits] at h
    split at h
    · cases h
    · next hu =>
      cases h
      simp [digits, hc, hd, hb, hu]
  | x :: t, acc, u, n, h => by
    rw [List.cons_append]
    simp only [digits] at h ⊢
    split at h
    · next hx =>
      rw [if_pos hx]
      split at h
      · cases h
      · next hu =>
        rw [if_neg hu]
        exact digits_gap hd hb hc t _ _ _ h
    · next hx =>
      rw [if_neg hx]
      cases hy : digit x with
      | none => rw [hy] at h; cases h
      | some y =>
        rw [hy] at h
        simp only at h ⊢
        split at h
        · next hl =>
          rw [if_pos hl]
          exact digits_gap hd hb hc t _ _ _ h
        · cases h

theorem digit_ne {c : Char} {d : Nat} (h : digit c = some d) : c ≠ '_' := by
  rintro rfl
  revert h
  decide +revert

theorem digits_of {b : Nat} {t : Text} {n : Nat} (h : Digits b t n) : digits b 0 true t = some n := by
  induction h with
  | one h =>
    have hd := spec_digit h.2
    simp [digits, hd, h.1, digit_ne hd]
  | next _ h ih =>
    have hd := spec_digit h.2
    exact digits_snoc hd h.1 (digit_ne hd) _ _ _ _ ih
  | gap _ h ih =>
    have hd := spec_digit h.2
    exact digits_gap hd h.1 (digit_ne hd) _ _ _ _ ih

/-- What was read so far. -/
inductive Before (b : Nat) : Text → Nat → Bool → Prop
  | start : Before b [] 0 true
  | plain {t n} : Digits b t n → Before b t n false
  | under {t n} : Digits b t n → Before b (t ++ ['_']) n true

theorem digits_to {b : Nat} : ∀ (t p : Text) (acc : Nat) (u : Bool) (n : Nat), Before b p acc u →
    digits b acc u t = some n → Digits b (p ++ t) n
  | [], p, acc, u, n, hp, h => by
    simp only [digits] at h
    split at h
    · cases h
    · next hu =>
      cases h
      cases hp with
      | start => exact absurd rfl hu
      | plain h => rwa [List.append_nil]
      | under h => exact absurd rfl hu
  | c :: t, p, acc, u, n, hp, h => by
    simp only [digits] at h
    split at h
    · next hc =>
      split at h
      · cases h
      · next hu =>
        cases hp with
        | start => exact absurd rfl hu
        | plain hp =>
          have := digits_to t (p ++ ['_']) acc true n (.under hp) h
          rw [hc]
          simpa using this
        | under h => exact absurd rfl hu
    · next hc =>
      cases hd : digit c with
      | none => rw [hd] at h; cases h
      | some d =>
        rw [hd] at h
        simp only at h
        split at h
        · next hl =>
          have hD : Digit b c d := ⟨hl, (digit_spec hd).2⟩
          have : Before b (p ++ [c]) (acc * b + d) false := by
            cases hp with
            | start => exact .plain (by simpa using Digits.one hD)
            | plain hp => exact .plain (.next hp hD)
            | under hp => exact .plain (by simpa using Digits.gap hp hD)
          have := digits_to t (p ++ [c]) _ _ n this h
          simpa using this
        · cases h

theorem digits_iff {b : Nat} {t : Text} {n : Nat} : digits b 0 true t = some n ↔ Digits b t n :=
  ⟨fun h => by simpa using digits_to t [] 0 true n .start h, digits_of⟩

theorem digits_plain {b : Nat} {t : Text} {n : Nat} (h : Digits b t n) : t ≠ [] ∧ ∀ c ∈ t, Plain c := by
  induction h with
  | one h => exact ⟨by simp, by simp [Plain, spec_digit h.2]⟩
  | next _ h ih =>
    refine ⟨by simp, fun c hc => ?_⟩
    rcases List.mem_append.1 hc with hc | hc
    · exact ih.2 c hc
    · rw [List.mem_singleton.1 hc]; exact .inl (by rw [spec_digit h.2]; rfl)
  | gap _ h ih =>
    refine ⟨by simp, fun c hc => ?_⟩
    rcases List.mem_append.1 hc with hc | hc
    · exact ih.2 c hc
    · simp only [List.mem_cons, List.not_mem_nil, or_false] at hc
      rcases hc with rfl | rfl
      · exact .inr rfl
      · exact .inl (by rw [spec_digit h.2]; rfl)

theorem digits_head {b : Nat} {t : Text} {n : Nat} (h : Digits b t n) : t.head? ≠ some '_' := by
  intro he
  have := digits_of h
  cases t with
  | nil => cases he
  | cons c t =>
    cases he
    simp [digits] at this

/-! ## Numbers -/

theorem afterPrefix_iff {b : Nat} {t : Text} {n : Nat} : afterPrefix b t = some n ↔ AfterPrefix b t n := by
  unfold afterPrefix AfterPrefix
  split
  · next h =>
    cases t with
    | nil => cases h
    | cons c t =>
      cases h
      rw [List.tail_cons, digits_iff]
      constructor
      · exact fun h => .inr ⟨t, rfl, h⟩
      · rintro (h | ⟨t', e, h⟩)
        · exact absurd rfl (digits_head h)
        · cases e; exact h
  · next h =>
    rw [digits_iff]
    constructor
    · exact .inl
    · rintro (h' | ⟨t', e, h'⟩)
      · exact h'
      · subst e; exact absurd rfl h

theorem afterPrefix_plain {b : Nat} {t : Text} {n : Nat} (h : AfterPrefix b t n) : ∀ c ∈ t, Plain c := by
  rcases h with h | ⟨t', rfl, h⟩
  · exact (digits_plain h).2
  · intro c hc
    rcases List.mem_cons.1 hc with rfl | hc
    · exact .inr rfl
    · exact (digits_plain h).2 c hc

theorem basePrefix_some {t t' : Text} {b : Nat} (h : basePrefix t = some (b, t')) :
    ∃ x, t = '0' :: x :: t' ∧ ((b = 16 ∧ (x = 'x' ∨ x = 'X')) ∨ (b = 8 ∧ (x = 'o' ∨ x = 'O')) ∨ (b = 2 ∧ (x = 'b' ∨ x = 'B'))) := by
  unfold basePrefix at h
  split at h
  · next x t0 =>
    refine ⟨x, ?_⟩
    split at h
    · next hx => cases h; exact ⟨rfl, .inl ⟨rfl, hx⟩⟩
    · split at h
      · next hx => cases h; exact ⟨rfl, .inr (.inl ⟨rfl, hx⟩)⟩
      · split at h
        · next hx => cases h; exact ⟨rfl, .inr (.inr ⟨rfl, hx⟩)⟩
        · cases h
  · cases h

theorem basePrefix_hex {x : Char} {t : Text} (h : x = 'x' ∨ x = 'X') : basePrefix ('0' :: x :: t) = some (16, t) := by
  rcases h with rfl | rfl <;> simp [basePrefix]

theorem basePrefix_oct {x : Char} {t : Text} (h : x = 'o' ∨ x = 'O') : basePrefix ('0' :: x :: t) = some (8, t) := by
  rcases h with rfl | rfl <;> simp [basePrefix]

theorem basePrefix_bin {x : Char} {t : Text} (h : x = 'b' ∨ x = 'B') : basePrefix ('0' :: x :: t) = some (2, t) := by
  rcases h with rfl | rfl <;> simp [basePrefix]

/-- Decimal numbers have no prefix. -/
theorem digits_noPrefix {t : Text} {n : Nat} (h : Digits 10 t n) : basePrefix t = none := by
  cases hb : basePrefix t with
  | none => rfl
  | some y =>
    obtain ⟨b, t'⟩ := y
    obtain ⟨x, rfl, hx⟩ := basePrefix_some hb
    have := digits_of h
    exfalso
    rcases hx with ⟨_, rfl | rfl⟩ | ⟨_, rfl | rfl⟩ | ⟨_, rfl | rfl⟩ <;>
      simp [digits, digit] at this

/-- In hexadecimal numbers, `x` is not a digit. -/
theorem digits16_noPrefix {t t' : Text} {n b : Nat} (h : Digits 16 t n) (hb : basePrefix t = some (b, t')) : b ≠ 16 := by
  rintro rfl
  obtain ⟨x, rfl, hx⟩ := basePrefix_some hb
  have := digits_of h
  rcases hx with ⟨_, rfl | rfl⟩ | ⟨h, _⟩ | ⟨h, _⟩
  · simp [digits, digit] at this
  · simp [digits, digit] at this
  · cases h
  · cases h

theorem unsigned0_iff {t : Text} {n : Nat} : unsigned0 t = some n ↔ Literal t n := by
  constructor
  · intro h
    unfold unsigned0 at h
    cases hb : basePrefix t with
    | some y =>
      obtain ⟨b, t'⟩ := y
      rw [hb] at h
      obtain ⟨x, rfl, hx⟩ := basePrefix_some hb
      rcases hx with ⟨rfl, hx⟩ | ⟨rfl, hx⟩ | ⟨rfl, hx⟩
      · exact .hex hx (afterPrefix_iff.1 h)
      · exact .oct hx (afterPrefix_iff.1 h)
      · exact .bin hx (afterPrefix_iff.1 h)
    | none =>
      rw [hb] at h
      simp only at h
      split at h
      · obtain ⟨m, h1, h2⟩ := Option.bind_eq_some_iff.1 h
        split at h2
        · next hm => cases h2; subst hm; exact .zero (digits_iff.1 h1)
        · cases h2
      · next hh =>
        have hD := digits_iff.1 h
        cases t with
        | nil => exact absurd rfl (digits_plain hD).1
        | cons c t => exact .dec hD (by rintro rfl; exact hh rfl)
  · intro h
    unfold unsigned0
    cases h with
    | dec hD hc =>
      rw [digits_noPrefix hD]
      simp only [List.head?_cons, Option.some.injEq]
      rw [if_neg hc]
      exact digits_of hD
    | zero hD =>
      rw [digits_noPrefix hD]
      simp only
      split
      · rw [digits_of hD]; rfl
      · exact digits_of hD
    | hex hx hD => rw [basePrefix_hex hx]; exact afterPrefix_iff.2 hD
    | oct hx hD => rw [basePrefix_oct hx]; exact afterPrefix_iff.2 hD
    | bin hx hD => rw [basePrefix_bin hx]; exact afterPrefix_iff.2 hD

theorem unsigned16_iff {t : Text} {n : Nat} : unsigned16 t = some n ↔ Hex t n := by
  constructor
  · intro h
    unfold unsigned16 at h
    cases hb : basePrefix t with
    | some y =>
      obtain ⟨b, t'⟩ := y
      rw [hb] at h
      simp only at h
      split at h
      · next e =>
        obtain ⟨x, rfl, hx⟩ := basePrefix_some hb
        rcases hx with ⟨_, hx⟩ | ⟨h8, _⟩ | ⟨h2, _⟩
        · exact .pre hx (afterPrefix_iff.1 h)
        · omega
        · omega
      · exact .bare (digits_iff.1 h)
    | none => rw [hb] at h; exact .bare (digits_iff.1 h)
  · intro h
    unfold unsigned16
    cases h with
    | bare hD =>
      cases hb : basePrefix t with
      | none => exact digits_of hD
      | some y =>
        obtain ⟨b, t'⟩ := y
        simp only
        rw [if_neg (digits16_noPrefix hD hb)]
        exact digits_of hD
    | pre hx hD =>
      rw [basePrefix_hex hx]
      exact afterPrefix_iff.2 hD

theorem literal_plain {t : Text} {n : Nat} (h : Literal t n) : t ≠ [] ∧ ∀ c ∈ t, Plain c := by
  have key : ∀ (x : Char) (t : Text), Plain x → (∀ c ∈ t, Plain c) → ∀ c ∈ '0' :: x :: t, Plain c := by
    intro x t hx ht c hc
    rcases List.mem_cons.1 hc with rfl | hc
    · decide
    · rcases List.mem_cons.1 hc with rfl | hc
      · exact hx
      · exact ht c hc
  cases h with
  | dec hD _ => exact digits_plain hD
  | zero hD => exact digits_plain hD
  | hex hx hD => exact ⟨by simp, key _ _ (by rcases hx with rfl | rfl <;> decide) (afterPrefix_plain hD)⟩
  | oct hx hD => exact ⟨by simp, key _ _ (by rcases hx with rfl | rfl <;> decide) (afterPrefix_plain hD)⟩
  | bin hx hD => exact ⟨by simp, key _ _ (by rcases hx with rfl | rfl <;> decide) (afterPrefix_plain hD)⟩

theorem hex_plain {t : Text} {n : Nat} (h : Hex t n) : t ≠ [] ∧ ∀ c ∈ t, Plain c := by
  cases h with
  | bare hD => exact digits_plain hD
  | pre hx hD =>
    refine ⟨by simp, fun c hc => ?_⟩
    rcases List.mem_cons.1 hc with rfl | hc
    · decide
    · rcases List.mem_cons.1 hc with rfl | hc
      · rcases hx with rfl | rfl <;> decide
      · exact afterPrefix_plain hD c hc

theorem signed_iff {f : Text → Option Nat} {P : Text → Nat → Prop} (hf : ∀ t n, f t = some n ↔ P t n)
    (hp : ∀ t n, P t n → t ≠ [] ∧ ∀ c ∈ t, Plain c) {t : Text} {v : Int} : signed f t = some v ↔ Signed P t v := by
  constructor
  · intro h
    cases t with
    | nil => cases h
    | cons c t =>
      simp only [signed] at h
      split at h
      · next e =>
        obtain ⟨n, h1, rfl⟩ := Option.map_eq_some_iff.1 h
        subst e
        exact .plus ((hf _ _).1 h1)
      · split at h
        · next e =>
          obtain ⟨n, h1, rfl⟩ := Option.map_eq_some_iff.1 h
          subst e
          exact .minus ((hf _ _).1 h1)
        · obtain ⟨n, h1, rfl⟩ := Option.map_eq_some_iff.1 h
          exact .none ((hf _ _).1 h1)
  · intro h
    cases h with
    | none h =>
      cases t with
      | nil => exact absurd rfl (hp _ _ h).1
      | cons c t =>
        have hc := (hp _ _ h).2 c (by simp)
        have h1 : c ≠ '+' := by rintro rfl; revert hc; decide
        have h2 : c ≠ '-' := by rintro rfl; revert hc; decide
        simp [signed, h1, h2, (hf _ _).2 h]
    | plus h => simp [signed, (hf _ _).2 h]
    | minus h => simp [signed, (hf _ _).2 h]

theorem int10_iff {t : Text} {v : Int} : int10 t = some v ↔ Dec t v :=
  signed_iff (fun _ _ => digits_iff) (fun _ _ => digits_plain)

theorem int16_iff {t : Text} {v : Int} : int16 t = some v ↔ Signed Hex t v :=
  signed_iff (fun _ _ => unsigned16_iff) (fun _ _ => hex_plain)

theorem int0_iff {t : Text} {v : Int} : int0 t = some v ↔ Signed Literal t v :=
  signed_iff (fun _ _ => unsigned0_iff) (fun _ _ => literal_plain)

/-- Characters of numbers with a sign. -/
theorem signed_chars {P : Text → Nat → Prop} (hp : ∀ t n, P t n → t ≠ [] ∧ ∀ c ∈ t, Plain c) {t : Text} {v : Int}
    (h : Signed P t v) : t ≠ [] ∧ ∀ c ∈ t, Plain c ∨ c = '+' ∨ c = '-' := by
  cases h with
  | none h => exact ⟨(hp _ _ h).1, fun c hc => .inl ((hp _ _ h).2 c hc)⟩
  | plus h =>
    refine ⟨by simp, fun c hc => ?_⟩
    rcases List.mem_cons.1 hc with rfl | hc
    · exact .inr (.inl rfl)
    · exact .inl ((hp _ _ h).2 c hc)
  | minus h =>
    refine ⟨by simp, fun c hc => ?_⟩
    rcases List.mem_cons.1 hc with rfl | hc
    · exact .inr (.inr rfl)
    · exact .inl ((hp _ _ h).2 c hc)

theorem dec_chars {t : Text} {v : Int} (h : Dec t v) : ∀ c ∈ t, Plain c ∨ c = '+' ∨ c = '-' :=
  (signed_chars (fun _ _ => digits_plain) h).2

end Bm.Cli
