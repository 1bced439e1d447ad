import Verif.Spec.TargetOpts
import Verif.Lemmas.Options
import Mathlib.Data.List.Induction

namespace Bm.TargetOpts

open Spec Bm.Options
open Bm.Options.Spec (IsDec)

/-! ## Lists of pairs -/

theorem lookup_none {β : Type} {l : List (Str × β)} {n : Str} : l.lookup n = none ↔ ∀ x, (n, x) ∉ l := by
  induction l with
  | nil => simp
  | cons a l ih =>
    obtain ⟨m, y⟩ := a
    rw [List.lookup_cons]
    by_cases h : n = m
    · subst h; simp only [beq_self_eq_true]
      constructor
      · intro h; exact nomatch h
      · intro h; exact absurd (List.mem_cons_self) (h y)
    · have : (n == m) = false := by simp [h]
      simp only [this, ih, List.mem_cons, Prod.mk.injEq, h, false_and, false_or]

theorem lookup_mem {β : Type} {l : List (Str × β)} (hd : (l.map Prod.fst).Nodup) {n : Str} {x : β} :
    l.lookup n = some x ↔ (n, x) ∈ l := by
  induction l with
  | nil => simp
  | cons a l ih =>
    obtain ⟨m, y⟩ := a
    rw [List.map_cons, List.nodup_cons] at hd
    rw [List.lookup_cons]
    by_cases h : n = m
    · subst h
      simp only [beq_self_eq_true, Option.some.injEq, List.mem_cons, Prod.mk.injEq, true_and]
      constructor
      · intro h; exact .inl h.symm
      · rintro (h | h)
        · exact h.symm
        · exact absurd (List.mem_map_of_mem (f := Prod.fst) h) hd.1
    · have : (n == m) = false := by simp [h]
      simp only [this, ih hd.2, List.mem_cons, Prod.mk.injEq, h, false_and, false_or]

theorem lookup_append {β : Type} (l : List (Str × β)) (m n : Str) (x : β) :
    (l ++ [(m, x)]).lookup n = match l.lookup n with | some y => some y | none => if n = m then some x else none := by
  induction l with
  | nil =>
    rw [List.nil_append, List.lookup_cons]
    by_cases h : n = m
    · subst h; simp
    · have : (n == m) = false := by simp [h]
      simp [this, h]
  | cons a l ih =>
    obtain ⟨k, y⟩ := a
    rw [List.cons_append, List.lookup_cons, List.lookup_cons]
    cases n == k with
    | true => rfl
    | false => exact ih

/-! ## Numbers -/

theorem char_digit {c : Char} (h : c.isDigit = true) : ∃ d, d < 10 ∧ c = Char.ofNat (48 + d) ∧ c.toNat - 48 = d := by
  have h1 : 48 ≤ c.toNat ∧ c.toNat ≤ 57 := by
    simp only [Char.isDigit, Bool.and_eq_true, decide_eq_true_eq] at h
    exact ⟨h.1, h.2⟩
  refine ⟨c.toNat - 48, by omega, ?_, rfl⟩
  rw [show 48 + (c.toNat - 48) = c.toNat by omega, Char.ofNat_toNat]

theorem dec_of_digits {ds : Str} (h1 : ds ≠ []) (h2 : ∀ c ∈ ds, c.isDigit = true) :
    IsDec ds (ds.foldl (fun a c => a * 10 + (c.toNat - 48)) 0) := by
  induction ds using List.reverseRecOn with
  | nil => exact absurd rfl h1
  | append_singleton ds c ih =>
    obtain ⟨d, hd, hc, hv⟩ := char_digit (h2 c (by simp))
    rw [List.foldl_append]
    simp only [List.foldl_cons, List.foldl_nil, hv]
    cases ds with
    | nil =>
      simp only [List.nil_append, List.foldl_nil, Nat.zero_mul, Nat.zero_add]
      rw [hc]; exact .one d hd
    | cons a ds =>
      have := IsDec.snoc _ _ d (ih (by simp) (fun c hc => h2 c (List.mem_append_left _ hc))) hd
      rw [← hc, Nat.mul_comm] at this; exact this

theorem decimal_iff {ds : Str} {v : Nat} : decimal ds = some v ↔ IsDec ds v := by
  unfold decimal
  constructor
  · intro h
    split at h
    · exact nomatch h
    · rename_i hc
      simp only [Bool.or_eq_true, Bool.not_eq_true', not_or, List.isEmpty_iff, Bool.not_eq_false, List.all_eq_true] at hc
      injection h with h
      rw [← h]; exact dec_of_digits hc.1 hc.2
  · intro h
    obtain ⟨h1, h2, h3⟩ := isDec_spec h
    rw [if_neg, h3]
    simp only [Bool.or_eq_true, Bool.not_eq_true', not_or, List.isEmpty_iff, Bool.not_eq_false, List.all_eq_true]
    exact ⟨h1, h2⟩

theorem sign_dec {ds : Str} {v : Nat} (h : IsDec ds v) : sign ds = (false, ds) := by
  obtain ⟨h1, h2, -⟩ := isDec_spec h
  obtain ⟨c, cs, rfl⟩ := List.exists_cons_of_ne_nil h1
  obtain ⟨-, g2, g3, -⟩ := digit_not (h2 c (by simp))
  unfold sign; split
  · rename_i hc; injection hc with hc; exact absurd hc g2
  · rename_i hc; injection hc with hc; exact absurd hc g3
  · rfl

theorem sign_cases (t : Str) : (∃ r, t = '-' :: r ∧ sign t = (true, r)) ∨ (∃ r, t = '+' :: r ∧ sign t = (false, r)) ∨ sign t = (false, t) := by
  unfold sign; split
  · rename_i r; exact .inl ⟨r, rfl, rfl⟩
  · rename_i r; exact .inr (.inl ⟨r, rfl, rfl⟩)
  · exact .inr (.inr rfl)

theorem conv_means {ty : Ty} {v : Option Str} {x : Val} (h : Means ty v x) : conv ty v = some x := by
  cases h with
  | str t => rfl
  | uint t n h hn =>
    simp only [conv, lexUint, sign_dec h, decimal_iff.2 h]
    rw [if_neg (by omega)]; rfl
  | uintPlus t n h hn =>
    have : sign ('+' :: t) = (false, t) := rfl
    simp only [conv, lexUint, this, decimal_iff.2 h]
    rw [if_neg (by omega)]; rfl
  | int t n h hn =>
    simp only [conv, lexInt, sign_dec h, decimal_iff.2 h, Bool.false_eq_true, if_false]
    rw [if_pos hn]; rfl
  | intPlus t n h hn =>
    have : sign ('+' :: t) = (false, t) := rfl
    simp only [conv, lexInt, this, decimal_iff.2 h, Bool.false_eq_true, if_false]
    rw [if_pos hn]; rfl
  | intMinus t n h hn =>
    have : sign ('-' :: t) = (true, t) := rfl
    simp only [conv, lexInt, this, decimal_iff.2 h, if_true]
    rw [if_pos hn]; rfl

theorem means_conv {ty : Ty} {v : Option Str} {x : Val} (h : conv ty v = some x) (hf : ty ≠ .flag) : Means ty v x ∨ NegUint ty v := by
  cases ty with
  | flag => exact absurd rfl hf
  | str =>
    cases v with
    | none => exact nomatch h
    | some t => injection h with h; subst h; exact .inl (.str t)
  | uint =>
    cases v with
    | none => exact nomatch h
    | some t =>
      simp only [conv, Option.map_eq_some_iff] at h
      obtain ⟨n, h, rfl⟩ := h
      unfold lexUint at h
      rcases sign_cases t with ⟨r, rfl, -⟩ | ⟨r, rfl, hs⟩ | hs
      · exact .inr ⟨rfl, r, rfl⟩
      · rw [hs] at h
        split at h
        · exact nomatch h
        · rename_i v hv
          split at h
          · exact nomatch h
          · rename_i hlt
            injection h with h; subst h
            exact .inl (.uintPlus r v (decimal_iff.1 hv) (by omega))
      · rw [hs] at h
        split at h
        · exact nomatch h
        · rename_i v hv
          split at h
          · exact nomatch h
          · rename_i hlt
            injection h with h; subst h
            exact .inl (.uint t v (decimal_iff.1 hv) (by omega))
  | int =>
    cases v with
    | none => exact nomatch h
    | some t =>
      simp only [conv, Option.map_eq_some_iff] at h
      obtain ⟨n, h, rfl⟩ := h
      unfold lexInt at h
      left
      rcases sign_cases t with ⟨r, rfl, hs⟩ | ⟨r, rfl, hs⟩ | hs
      · rw [hs] at h
        split at h
        · exact nomatch h
        · rename_i v hv
          rw [if_pos rfl] at h
          split at h
          · rename_i hle
            injection h with h; subst h
            exact .intMinus r v (decimal_iff.1 hv) hle
          · exact nomatch h
      · rw [hs] at h
        split at h
        · exact nomatch h
        · rename_i v hv
          rw [if_neg (by simp)] at h
          split at h
          · rename_i hle
            injection h with h; subst h
            exact .intPlus r v (decimal_iff.1 hv) hle
          · exact nomatch h
      · rw [hs] at h
        split at h
        · exact nomatch h
        · rename_i v hv
          rw [if_neg (by simp)] at h
          split at h
          · rename_i hle
            injection h with h; subst h
            exact .int t v (decimal_iff.1 hv) hle
          · exact nomatch h

/-! ## The loop over the arguments -/

theorem times_cons_ne {t : Tok} {r : List Tok} {n : Str} : times r n ≤ times (t :: r) n := by
  unfold times; rw [List.countP_cons]; omega

theorem times_cons_self {r : List Tok} {n : Str} {v : Option Str} (h : times (.named n v :: r) n ≤ 1) (w : Option Str) : .named n w ∉ r := by
  intro hm
  have e : times (.named n v :: r) n = times r n + 1 := by unfold times; rw [List.countP_cons, if_pos (by simp)]
  have : 0 < times r n := by unfold times; exact List.countP_pos_iff.2 ⟨_, hm, by simp⟩
  omega

theorem store_ok {o : Opts} {ts : List Tok} (vm : Vm) (hb : .bad ∉ ts) (h1 : ∀ n, times ts n ≤ 1)
    (hf : ∀ n v, .named n v ∈ ts → vm.lookup n = none)
    (hc : ∀ n v, .named n v ∈ ts → ∃ ty x, o.lookup n = some ty ∧ conv ty v = some x) :
    ∃ vm', store o vm ts = (true, vm') ∧ ∀ n,
      (∀ v ty x, .named n v ∈ ts → o.lookup n = some ty → conv ty v = some x → vm'.lookup n = some x) ∧
      ((∀ v, .named n v ∉ ts) → vm'.lookup n = vm.lookup n) := by
  induction ts generalizing vm with
  | nil => exact ⟨vm, rfl, fun n => ⟨fun v ty x h => absurd h (by simp), fun _ => rfl⟩⟩
  | cons t r ih =>
    have hb' : Tok.bad ∉ r := fun h => hb (List.mem_cons_of_mem _ h)
    have h1' : ∀ n, times r n ≤ 1 := fun n => Nat.le_trans times_cons_ne (h1 n)
    cases t with
    | bad => exact absurd List.mem_cons_self hb
    | pos s =>
      obtain ⟨vm', e, h⟩ := ih vm hb' h1' (fun n v h => hf n v (List.mem_cons_of_mem _ h)) (fun n v h => hc n v (List.mem_cons_of_mem _ h))
      refine ⟨vm', by simp only [store]; exact e, fun n => ⟨fun v ty x hm => ?_, fun hm => ?_⟩⟩
      · exact (h n).1 v ty x (by simpa using hm)
      · exact (h n).2 (fun v hv => hm v (List.mem_cons_of_mem _ hv))
    | named m w =>
      obtain ⟨ty, x, ht, hx⟩ := hc m w List.mem_cons_self
      have hm := hf m w List.mem_cons_self
      have hnot := times_cons_self (h1 m)
      obtain ⟨vm', e, h⟩ := ih (vm ++ [(m, x)]) hb' h1' (fun n v h => by
        rw [lookup_append, hf n v (List.mem_cons_of_mem _ h)]
        simp only
        rw [if_neg]; rintro rfl; exact hnot v h) (fun n v h => hc n v (List.mem_cons_of_mem _ h))
      refine ⟨vm', ?_, fun n => ⟨fun v ty' x' hv ht' hx' => ?_, fun hv => ?_⟩⟩
      · simp only [store, ht, hm, hx, Option.isSome_none, Bool.false_eq_true, if_false]; exact e
      · rcases List.mem_cons.1 hv with hv | hv
        · injection hv with a b; subst a; subst b
          rw [(h n).2 hnot, lookup_append, hm]
          rw [ht] at ht'; injection ht' with ht'; subst ht'
          rw [hx] at hx'; simp only [if_true]; exact hx'
        · exact (h n).1 v ty' x' hv ht' hx'
      · rw [(h n).2 (fun v h => hv v (List.mem_cons_of_mem _ h)), lookup_append]
        have : n ≠ m := by rintro rfl; exact hv w List.mem_cons_self
        cases vm.lookup n with
        | some y => rfl
        | none => simp only [if_neg this]

theorem store_fail {o : Opts} {ts : List Tok} (vm : Vm) (hb : .bad ∉ ts) (h1 : ∀ n, times ts n ≤ 1)
    (hf : ∀ n v, .named n v ∈ ts → vm.lookup n = none)
    (hk : ∀ n v, .named n v ∈ ts → ∃ ty, o.lookup n = some ty)
    (hu : ∃ n v ty, .named n v ∈ ts ∧ o.lookup n = some ty ∧ conv ty v = none) :
    ∃ vm' n v ty, store o vm ts = (false, vm') ∧ vm'.lookup n = some .empty ∧ .named n v ∈ ts ∧ o.lookup n = some ty ∧ conv ty v = none := by
  induction ts generalizing vm with
  | nil => obtain ⟨_, _, _, h, -⟩ := hu; exact absurd h (by simp)
  | cons t r ih =>
    have hb' : Tok.bad ∉ r := fun h => hb (List.mem_cons_of_mem _ h)
    have h1' : ∀ n, times r n ≤ 1 := fun n => Nat.le_trans times_cons_ne (h1 n)
    cases t with
    | bad => exact absurd List.mem_cons_self hb
    | pos s =>
      obtain ⟨vm', n, v, ty, e, h⟩ := ih vm hb' h1' (fun n v h => hf n v (List.mem_cons_of_mem _ h))
        (fun n v h => hk n v (List.mem_cons_of_mem _ h)) (by
          obtain ⟨n, v, ty, h, g⟩ := hu; exact ⟨n, v, ty, by simpa using h, g⟩)
      exact ⟨vm', n, v, ty, by simp only [store]; exact e, h.1, List.mem_cons_of_mem _ h.2.1, h.2.2⟩
    | named m w =>
      obtain ⟨ty, ht⟩ := hk m w List.mem_cons_self
      have hm := hf m w List.mem_cons_self
      have hnot := times_cons_self (h1 m)
      cases hx : conv ty w with
      | none =>
        refine ⟨vm ++ [(m, .empty)], m, w, ty, ?_, ?_, List.mem_cons_self, ht, hx⟩
        · simp only [store, ht, hm, hx, Option.isSome_none, Bool.false_eq_true, if_false]
        · rw [lookup_append, hm]; simp
      | some x =>
        obtain ⟨vm', n, v, ty', e, h⟩ := ih (vm ++ [(m, x)]) hb' h1' (fun n v h => by
          rw [lookup_append, hf n v (List.mem_cons_of_mem _ h)]
          simp only
          rw [if_neg]; rintro rfl; exact hnot v h) (fun n v h => hk n v (List.mem_cons_of_mem _ h)) (by
            obtain ⟨n, v, ty', h, g, g'⟩ := hu
            rcases List.mem_cons.1 h with h | h
            · injection h with a b; subst a; subst b
              rw [ht] at g; injection g with g; subst g
              rw [hx] at g'; exact nomatch g'
            · exact ⟨n, v, ty', h, g, g'⟩)
        refine ⟨vm', n, v, ty', ?_, h.1, List.mem_cons_of_mem _ h.2.1, h.2.2⟩
        simp only [store, ht, hm, hx, Option.isSome_none, Bool.false_eq_true, if_false]; exact e

/-- The checks before. -/
theorem all_ok {o : Opts} (hd : Distinct o) {ts : List Tok} : ts.all (okTok o) = true ↔ Splits o ts := by
  rw [List.all_eq_true]
  constructor
  · intro h
    refine ⟨fun hb => by simpa [okTok] using h _ hb, fun n v hv => ?_⟩
    have := h _ hv
    simp only [okTok] at this
    split at this
    · exact nomatch this
    · rename_i e; exact ⟨.flag, (lookup_mem hd).1 e, by simpa using this⟩
    · rename_i ty hty e
      refine ⟨ty, (lookup_mem hd).1 e, fun g => absurd g (fun g => hty (by rw [g] )), fun g => ?_⟩
      rw [g] at this; exact nomatch this
  · rintro ⟨hb, h⟩ t ht
    cases t with
    | bad => exact absurd ht hb
    | pos s => rfl
    | named n v =>
      obtain ⟨ty, h1, h2⟩ := h n v ht
      simp only [okTok, (lookup_mem hd).2 h1]
      cases ty with
      | flag => simp [h2.1 rfl]
      | _ => cases v with
        | none => exact nomatch h2.2 rfl
        | some t => rfl

/-! ## Modules -/

theorem split_one (w : Str) : ',' ∉ w → w ≠ [] → splitComma w = [w] := by
  induction w with
  | nil => intro _ h; exact absurd rfl h
  | cons c w ih =>
    intro hc _
    have h1 : c ≠ ',' := fun e => hc (e ▸ List.mem_cons_self)
    have h2 : ',' ∉ w := fun e => hc (List.mem_cons_of_mem _ e)
    cases w with
    | nil => simp [splitComma, h1]
    | cons d w => rw [splitComma, if_neg h1, ih h2 (by simp)]

theorem split_two (w r : Str) : ',' ∉ w → splitComma (w ++ ',' :: r) = w :: splitComma r := by
  induction w with
  | nil => intro _; simp [splitComma]
  | cons c w ih =>
    intro hc
    have h1 : c ≠ ',' := fun e => hc (e ▸ List.mem_cons_self)
    have h2 : ',' ∉ w := fun e => hc (List.mem_cons_of_mem _ e)
    rw [List.cons_append, splitComma, if_neg h1, ih h2]

theorem words_split {s : Str} {ws : List Str} (h : Words s ws) : splitComma s = ws := by
  induction h with
  | nil => rfl
  | last w h hc => exact split_one w hc h
  | cons w r ws hc _ ih => rw [split_two w r hc, ih]

theorem comma_cases (s : Str) : ',' ∉ s ∨ ∃ w r, s = w ++ ',' :: r ∧ ',' ∉ w := by
  induction s with
  | nil => exact .inl (by simp)
  | cons c s ih =>
    by_cases hc : c = ','
    · subst hc; exact .inr ⟨[], s, rfl, by simp⟩
    · rcases ih with h | ⟨w, r, rfl, h⟩
      · left; intro g
        rcases List.mem_cons.1 g with g | g
        · exact hc g.symm
        · exact h g
      · refine .inr ⟨c :: w, r, rfl, fun g => ?_⟩
        rcases List.mem_cons.1 g with g | g
        · exact hc g.symm
        · exact h g

theorem split_words : ∀ (k : Nat) (s : Str), s.length ≤ k → Words s (splitComma s)
  | 0, s, h => by
    have : s = [] := List.eq_nil_of_length_eq_zero (by omega)
    subst this; exact .nil
  | k + 1, s, h => by
    rcases comma_cases s with hc | ⟨w, r, rfl, hc⟩
    · by_cases h0 : s = []
      · subst h0; exact .nil
      · rw [split_one s hc h0]; exact .last s h0 hc
    · rw [split_two w r hc]
      refine .cons w r _ hc (split_words k r ?_)
      simp only [List.length_append, List.length_cons] at h
      omega

theorem words_iff {s : Str} {ws : List Str} : Words s ws ↔ splitComma s = ws :=
  ⟨words_split, fun h => h ▸ split_words _ s (Nat.le_refl _)⟩

/-! ## The parser -/

theorem parse_ok {o : Opts} (hd : Distinct o) {ts : List Tok} (hs : Splits o ts) (h1 : ∀ n, times ts n ≤ 1)
    (hc : ∀ n v ty, .named n v ∈ ts → (n, ty) ∈ o → ∃ x, conv ty v = some x) :
    ∃ vm, parse o ts = (0, vm) ∧ ∀ n,
      (∀ v ty x, .named n v ∈ ts → (n, ty) ∈ o → conv ty v = some x → vm.lookup n = some x) ∧
      ((∀ v, .named n v ∉ ts) → vm.lookup n = none) := by
  obtain ⟨vm, e, h⟩ := store_ok (o := o) (ts := ts) [] hs.1 h1 (fun _ _ _ => rfl) (fun n v hv => by
    obtain ⟨ty, ht, -⟩ := hs.2 n v hv
    obtain ⟨x, hx⟩ := hc n v ty hv ht
    exact ⟨ty, x, (lookup_mem hd).2 ht, hx⟩)
  refine ⟨vm, ?_, fun n => ⟨fun v ty x hv ht hx => (h n).1 v ty x hv ((lookup_mem hd).2 ht) hx, fun hv => by rw [(h n).2 hv]; rfl⟩⟩
  unfold parse
  rw [if_pos ((all_ok hd).2 hs), e]

theorem parse_fail {o : Opts} (hd : Distinct o) {ts : List Tok} (hs : Splits o ts) (h1 : ∀ n, times ts n ≤ 1)
    (hu : ∃ n v ty, .named n v ∈ ts ∧ (n, ty) ∈ o ∧ conv ty v = none) :
    ∃ vm n v ty, parse o ts = (1, vm) ∧ vm.lookup n = some .empty ∧ .named n v ∈ ts ∧ (n, ty) ∈ o ∧ conv ty v = none := by
  obtain ⟨n, v, ty, hv, ht, hx⟩ := hu
  obtain ⟨vm, m, w, ty', e, h1, h2, h3, h4⟩ := store_fail (o := o) (ts := ts) [] hs.1 h1 (fun _ _ _ => rfl) (fun n v hv => by
    obtain ⟨ty, ht, -⟩ := hs.2 n v hv
    exact ⟨ty, (lookup_mem hd).2 ht⟩) ⟨n, v, ty, hv, (lookup_mem hd).2 ht, hx⟩
  refine ⟨vm, m, w, ty', ?_, h1, h2, (lookup_mem hd).1 h3, h4⟩
  unfold parse
  rw [if_pos ((all_ok hd).2 hs), e]

theorem switch_distinct : Distinct switchOpts := by unfold Distinct; decide +kernel

theorem conv_flag {v : Option Str} : v = none → conv .flag v = some (.str []) := by rintro rfl; rfl

theorem ty_unique {o : Opts} (hd : Distinct o) {n : Str} {a b : Ty} (h1 : (n, a) ∈ o) (h2 : (n, b) ∈ o) : a = b := by
  have g1 := (lookup_mem hd).2 h1
  rw [(lookup_mem hd).2 h2] at g1; injection g1 with g1; exact g1.symm

end Bm.TargetOpts
