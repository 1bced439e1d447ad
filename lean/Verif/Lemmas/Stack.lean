import Verif.Model.Stack
import Mathlib.Data.List.Nodup
import Mathlib.Tactic.Linarith

/-!
# Lemmas on stacks, for any kind of element
-/

namespace Bm.Stack

/-- What the operations on elements do to the contents `get`, under an invariant `I`; `el` are the
elements of the stack. -/
structure Laws {σ α : Type} (ops : ElemOps σ) (I : σ → Prop) (get : σ → Nat → α) (el : List Nat)
    (fv fi : α → α) : Prop where
  swap : ∀ s a b, I s → a ∈ el → b ∈ el → a ≠ b → ∃ s', ops.swap s a b = some s' ∧ I s' ∧
    get s' a = get s b ∧ get s' b = get s a ∧ ∀ c, c ≠ a → c ≠ b → get s' c = get s c
  markValid : ∀ s a, I s → a ∈ el → ∃ s', ops.markValid s a = some s' ∧ I s' ∧
    get s' a = fv (get s a) ∧ ∀ c, c ≠ a → get s' c = get s c
  markInvalid : ∀ s a, I s → a ∈ el → ∃ s', ops.markInvalid s a = some s' ∧ I s' ∧
    get s' a = fi (get s a) ∧ ∀ c, c ≠ a → get s' c = get s c

/-- Contents by position. -/
def view {σ α : Type} (get : σ → Nat → α) (el : List Nat) (s : σ) : List α := el.map (get s)

variable {σ α : Type} {ops : ElemOps σ} {I : σ → Prop} {get : σ → Nat → α} {el : List Nat}
  {fv fi : α → α}

theorem view_length (s : σ) : (view get el s).length = el.length := by simp [view]

theorem swapAt_spec (L : Laws ops I get el fv fi) (hn : el.Nodup) {st : Stack}
    (hst : st.elements = el) {s : σ} (hI : I s) {i j : Nat} (hi : i < el.length) (hj : j < el.length)
    (hij : i ≠ j) :
    ∃ s', swapAt ops st s i j = some s' ∧ I s' ∧
      (view get el s')[i]? = (view get el s)[j]? ∧ (view get el s')[j]? = (view get el s)[i]? ∧
      (∀ k, k ≠ i → k ≠ j → (view get el s')[k]? = (view get el s)[k]?) ∧
      ∀ c, c ∉ el → get s' c = get s c := by
  have hne : el[i] ≠ el[j] := fun h => hij ((List.Nodup.getElem_inj_iff hn).1 h)
  obtain ⟨s', h1, h2, h3, h4, h5⟩ := L.swap s el[i] el[j] hI (List.getElem_mem hi)
    (List.getElem_mem hj) hne
  refine ⟨s', ?_, h2, ?_, ?_, ?_, ?_⟩
  · unfold swapAt
    rw [hst, List.getElem?_eq_getElem hi, List.getElem?_eq_getElem hj]
    exact h1
  · simp [view, hi, hj, h3]
  · simp [view, hi, hj, h4]
  · intro k hki hkj
    by_cases hk : k < el.length
    · have a1 : el[k] ≠ el[i] := fun h => hki ((List.Nodup.getElem_inj_iff hn).1 h)
      have a2 : el[k] ≠ el[j] := fun h => hkj ((List.Nodup.getElem_inj_iff hn).1 h)
      simp [view, hk, h5 _ a1 a2]
    · simp [view, hk]
  · intro c hc
    exact h5 c (fun h => hc (h ▸ List.getElem_mem hi)) (fun h => hc (h ▸ List.getElem_mem hj))

theorem swapUp_spec (L : Laws ops I get el fv fi) (hn : el.Nodup) {st : Stack}
    (hst : st.elements = el) {num : Nat} (hnum : 0 < num) (n : Nat) : ∀ (i : Nat) (s : σ), I s →
    i + n + num ≤ el.length ∨ n = 0 →
    ∃ s', swapUp ops st num i n s = some s' ∧ I s' ∧
      (∀ k, i ≤ k → k < i + n → (view get el s')[k]? = (view get el s)[k + num]?) ∧
      (∀ k, k < i → (view get el s')[k]? = (view get el s)[k]?) ∧
      (∀ k, i + n + num ≤ k → (view get el s')[k]? = (view get el s)[k]?) ∧
      (n = 0 → s' = s) ∧
      ∀ c, c ∉ el → get s' c = get s c := by
  induction n with
  | zero =>
    intro i s hI _
    exact ⟨s, rfl, hI, by omega, fun _ _ => rfl, fun _ _ => rfl, fun _ => rfl, fun _ _ => rfl⟩
  | succ n ih =>
    intro i s hI hb
    obtain ⟨s1, a1, a2, a3, a4, a5, a6⟩ := swapAt_spec (i := i) (j := i + num) L hn hst hI
      (by omega) (by omega) (by omega)
    obtain ⟨s2, b1, b2, b3, b4, b5, _, b6⟩ := ih (i + 1) s1 a2 (by omega)
    refine ⟨s2, ?_, b2, ?_, ?_, ?_, by omega, ?_⟩
    · simp only [swapUp, a1, Option.bind_eq_bind, Option.bind_some]
      exact b1
    · intro k hk1 hk2
      rcases Nat.lt_or_ge i k with hk | hk
      · rw [b3 k (by omega) (by omega)]
        exact a5 _ (by omega) (by omega)
      · have : k = i := by omega
        subst this
        rw [b4 k (by omega), a3]
    · intro k hk
      rw [b4 k (by omega)]
      exact a5 _ (by omega) (by omega)
    · intro k hk
      rw [b5 k (by omega)]
      exact a5 _ (by omega) (by omega)
    · intro c hc
      rw [b6 c hc, a6 c hc]

theorem swapDown_spec (L : Laws ops I get el fv fi) (hn : el.Nodup) {st : Stack}
    (hst : st.elements = el) {num : Nat} (hnum : 0 < num) (n : Nat) : ∀ (s : σ), I s →
    n + num ≤ el.length ∨ n = 0 →
    ∃ s', swapDown ops st num n s = some s' ∧ I s' ∧
      (∀ k, k < n → (view get el s')[num + k]? = (view get el s)[k]?) ∧
      (∀ k, num + n ≤ k → (view get el s')[k]? = (view get el s)[k]?) ∧
      ∀ c, c ∉ el → get s' c = get s c := by
  induction n with
  | zero =>
    intro s hI _
    exact ⟨s, rfl, hI, by omega, fun _ _ => rfl, fun _ _ => rfl⟩
  | succ n ih =>
    intro s hI hb
    obtain ⟨s1, a1, a2, a3, a4, a5, a6⟩ := swapAt_spec (i := num + n) (j := n) L hn hst hI
      (by omega) (by omega) (by omega)
    obtain ⟨s2, b1, b2, b3, b4, b5⟩ := ih s1 a2 (by omega)
    refine ⟨s2, ?_, b2, ?_, ?_, ?_⟩
    · simp only [swapDown, a1, Option.bind_eq_bind, Option.bind_some]
      exact b1
    · intro k hk
      rcases Nat.lt_or_ge k n with hk' | hk'
      · rw [b3 k hk']
        exact a5 _ (by omega) (by omega)
      · have : k = n := by omega
        subst this
        rw [b4 _ (by omega), a3]
    · intro k hk
      rw [b4 k (by omega)]
      exact a5 _ (by omega) (by omega)
    · intro c hc
      rw [b5 c hc, a6 c hc]

theorem markAll_spec {mark : σ → Nat → Option σ} {f : α → α}
    (L : ∀ s a, I s → a ∈ el → ∃ s', mark s a = some s' ∧ I s' ∧
      get s' a = f (get s a) ∧ ∀ c, c ≠ a → get s' c = get s c)
    (hn : el.Nodup) {st : Stack} (hst : st.elements = el) (n : Nat) : ∀ (i : Nat) (s : σ), I s →
    i + n ≤ el.length →
    ∃ s', markAll mark st i n s = some s' ∧ I s' ∧
      (∀ k, i ≤ k → k < i + n → (view get el s')[k]? = (view get el s)[k]?.map f) ∧
      (∀ k, (k < i ∨ i + n ≤ k) → (view get el s')[k]? = (view get el s)[k]?) ∧
      ∀ c, c ∉ el → get s' c = get s c := by
  induction n with
  | zero =>
    intro i s hI _
    exact ⟨s, rfl, hI, by omega, fun _ _ => rfl, fun _ _ => rfl⟩
  | succ n ih =>
    intro i s hI hb
    have hi : i < el.length := by omega
    obtain ⟨s1, a1, a2, a3, a4⟩ := L s el[i] hI (List.getElem_mem hi)
    obtain ⟨s2, b1, b2, b3, b4, b5⟩ := ih (i + 1) s1 a2 (by omega)
    have hoth : ∀ k, k ≠ i → (view get el s1)[k]? = (view get el s)[k]? := by
      intro k hki
      by_cases hk : k < el.length
      · have a1 : el[k] ≠ el[i] := fun h => hki ((List.Nodup.getElem_inj_iff hn).1 h)
        simp [view, hk, a4 _ a1]
      · simp [view, hk]
    refine ⟨s2, ?_, b2, ?_, ?_, ?_⟩
    · simp only [markAll, hst, List.getElem?_eq_getElem hi, Option.bind_eq_bind, Option.bind_some, a1]
      exact b1
    · intro k hk1 hk2
      rcases Nat.lt_or_ge i k with hk | hk
      · rw [b3 k (by omega) (by omega), hoth k (by omega)]
      · have : k = i := by omega
        subst this
        rw [b4 k (by omega)]
        simp [view, hi, a3]
    · intro k hk
      rw [b4 k (by omega), hoth k (by omega)]
    · intro c hc
      rw [b5 c hc, a4 c (fun h => hc (h ▸ List.getElem_mem hi))]

/-- A list known by position is the concatenation of three parts. -/
theorem eq_three {A X C : List α} {f : α → α} {W : List α} {i n : Nat} (hA : A.length = W.length)
    (hi : i + n ≤ A.length) (hX : X.length = i) (hC : C.length = A.length - (i + n))
    (h1 : ∀ k, k < i → A[k]? = X[k]?)
    (h2 : ∀ k, i ≤ k → k < i + n → A[k]? = W[k]?.map f)
    (h3 : ∀ k, i + n ≤ k → A[k]? = C[k - (i + n)]?) :
    ∃ Z : List α, Z.length = n ∧ A = X ++ Z.map f ++ C := by
  refine ⟨(W.drop i).take n, by simp; omega, ?_⟩
  apply List.ext_getElem?
  intro k
  rw [List.append_assoc]
  rcases Nat.lt_or_ge k i with hk | hk
  · rw [h1 k hk, List.getElem?_append_left (by omega)]
  · rw [List.getElem?_append_right (by omega)]
    rcases Nat.lt_or_ge k (i + n) with hk2 | hk2
    · rw [h2 k hk hk2, List.getElem?_append_left (by simp; omega), List.getElem?_map,
        List.getElem?_take_of_lt (by omega), List.getElem?_drop, hX]
      congr 2
      omega
    · rw [h3 k hk2, List.getElem?_append_right (by simp; omega)]
      congr 1
      simp
      omega

theorem popFrontLegacy_spec (L : Laws ops I get el fv fi) (hn : el.Nodup) {st : Stack}
    (hst : st.elements = el) (hnext : st.next ≤ el.length) (num : Nat) {s : σ} (hI : I s) :
    ∃ (s' : σ) (Z : List α), popFrontLegacy ops st num s
        = some (min st.next num, { st with next := st.next - min st.next num }, s') ∧ I s' ∧
      Z.length = min st.next num ∧
      view get el s' = ((view get el s).take st.next).drop num ++ Z.map fi
        ++ (view get el s).drop st.next ∧
      ∀ c, c ∉ el → get s' c = get s c := by
  unfold popFrontLegacy
  by_cases h0 : num = 0
  · subst h0
    exact ⟨s, [], by simp, hI, by simp, by simp [List.take_append_drop], fun _ _ => rfl⟩
  rw [if_neg h0]
  obtain ⟨s1, a1, a2, a3, a4, a5, a7, a6⟩ := swapUp_spec (num := num) L hn
    (st := { st with next := st.next - min st.next num }) hst (by omega) (st.next - min st.next num) 0 s hI
    (by omega)
  obtain ⟨s2, b1, b2, b3, b4, b5⟩ := markAll_spec (mark := ops.markInvalid) L.markInvalid hn
    (st := { st with next := st.next - min st.next num }) hst (min st.next num)
    (st.next - min st.next num) s1 a2 (by omega)
  have hl := view_length (get := get) (el := el)
  obtain ⟨Z, z1, z2⟩ := eq_three (A := view get el s2) (W := view get el s1) (f := fi)
    (X := ((view get el s).take st.next).drop num) (C := (view get el s).drop st.next)
    (i := st.next - min st.next num) (n := min st.next num)
    (by rw [hl, hl]) (by rw [hl]; omega) (by simp only [List.length_drop, List.length_take, hl]; omega) (by simp only [List.length_drop, hl]; omega)
    (by
      intro k hk
      rw [b4 k (by omega), a3 k (by omega) (by omega), List.getElem?_drop,
        List.getElem?_take_of_lt (by omega)]
      congr 1
      omega)
    (by intro k h1 h2; exact b3 k h1 h2)
    (by
      intro k hk
      rw [b4 k (by omega), List.getElem?_drop]
      by_cases hz : st.next - min st.next num = 0
      · rw [a7 hz]; congr 1; omega
      · rw [a5 k (by omega)]; congr 1; omega)
  refine ⟨s2, Z, ?_, b2, z1, z2, ?_⟩
  · simp only [a1, Option.bind_eq_bind, Option.bind_some, b1]; rfl
  · intro c hc
    rw [b5 c hc, a6 c hc]

theorem pushFrontLegacy_spec (L : Laws ops I get el fv fi) (hn : el.Nodup) {st : Stack}
    (hst : st.elements = el) (hpos : 0 < el.length) (hnext : st.next ≤ el.length) (num : Nat)
    (hov : st.next + num < 2 ^ 64) {s : σ} (hI : I s) :
    ∃ (s' : σ) (Z : List α), pushFrontLegacy ops st num s
        = some (min el.length num, { st with next := min el.length (st.next + num) }, s') ∧ I s' ∧
      Z.length = min el.length num ∧
      view get el s' = Z.map fv ++ (view get el s).take (min el.length (st.next + num) - num)
        ++ (view get el s).drop (min el.length (st.next + num)) ∧
      ∀ c, c ∉ el → get s' c = get s c := by
  unfold pushFrontLegacy
  by_cases h0 : num = 0
  · subst h0
    refine ⟨s, [], ?_, hI, by simp, by simp [List.take_append_drop], fun _ _ => rfl⟩
    rw [if_pos rfl]
    have : min el.length st.next = st.next := by omega
    simp [this]
  rw [if_neg h0, Nat.mod_eq_of_lt hov, hst]
  have hd : downCount (min el.length (st.next + num)) num = min el.length (st.next + num) - num := by
    unfold downCount
    rw [if_neg (by omega)]
  obtain ⟨s1, a1, a2, a3, a4, a5⟩ := swapDown_spec (num := num) L hn
    (st := { elements := el, next := min el.length (st.next + num) }) rfl (by omega)
    (min el.length (st.next + num) - num) s hI (by omega)
  obtain ⟨s2, b1, b2, b3, b4, b5⟩ := markAll_spec (mark := ops.markValid) L.markValid hn
    (st := { elements := el, next := min el.length (st.next + num) }) rfl
    (min el.length num) 0 s1 a2 (by omega)
  have hl := view_length (get := get) (el := el)
  obtain ⟨Z, z1, z2⟩ := eq_three (A := view get el s2) (W := view get el s1) (f := fv)
    (X := []) (C := (view get el s).take (min el.length (st.next + num) - num)
        ++ (view get el s).drop (min el.length (st.next + num)))
    (i := 0) (n := min el.length num)
    (by rw [hl, hl]) (by rw [hl]; omega) rfl (by simp [hl]; omega)
    (by omega)
    (by intro k h1 h2; exact b3 k h1 h2)
    (by
      intro k hk
      rw [b4 k (by omega)]
      rcases Nat.lt_or_ge k (min el.length (st.next + num)) with hk2 | hk2
      · have := a3 (k - num) (by omega)
        rw [show num + (k - num) = k by omega] at this
        rw [this, List.getElem?_append_left (by simp [hl]; omega), List.getElem?_take_of_lt (by omega)]
        congr 1; omega
      · rcases Nat.lt_or_ge k el.length with hk3 | hk3
        · rw [a4 k (by omega), List.getElem?_append_right (by simp [hl]; omega), List.getElem?_drop]
          congr 1
          simp [hl]; omega
        · rw [List.getElem?_eq_none (by rw [hl]; omega),
            List.getElem?_eq_none (by simp [hl]; omega)])
  refine ⟨s2, Z, ?_, b2, z1, ?_, ?_⟩
  · simp only [hd, a1, Option.bind_eq_bind, Option.bind_some, b1]; rfl
  · rw [z2]; simp
  · intro c hc
    rw [b5 c hc, a5 c hc]

theorem popFrontP416_spec (L : Laws ops I get el fv fi) (hn : el.Nodup) {st : Stack}
    (hst : st.elements = el) (num : Nat) {s : σ} (hI : I s) :
    ∃ (s' : σ) (Z : List α), popFrontP416 ops st num s
        = some (min num el.length, { st with next := st.next - min st.next num }, s') ∧ I s' ∧
      Z.length = min num el.length ∧
      view get el s' = (view get el s).drop num ++ Z.map fi ∧
      ∀ c, c ∉ el → get s' c = get s c := by
  unfold popFrontP416
  by_cases h0 : num = 0
  · subst h0
    exact ⟨s, [], by simp, hI, by simp, by simp, fun _ _ => rfl⟩
  rw [if_neg h0, hst]
  have hd : (if num < el.length then el.length - num else 0) = el.length - num := by
    split <;> omega
  obtain ⟨s1, a1, a2, a3, a4, a5, a7, a6⟩ := swapUp_spec (num := num) L hn
    (st := { elements := el, next := st.next - min st.next num }) rfl (by omega) (el.length - num) 0 s hI
    (by omega)
  obtain ⟨s2, b1, b2, b3, b4, b5⟩ := markAll_spec (mark := ops.markInvalid) L.markInvalid hn
    (st := { elements := el, next := st.next - min st.next num }) rfl (el.length - (el.length - num))
    (el.length - num) s1 a2 (by omega)
  have hl := view_length (get := get) (el := el)
  obtain ⟨Z, z1, z2⟩ := eq_three (A := view get el s2) (W := view get el s1) (f := fi)
    (X := (view get el s).drop num) (C := [])
    (i := el.length - num) (n := el.length - (el.length - num))
    (by rw [hl, hl]) (by rw [hl]; omega) (by simp [hl]) (by rw [hl, List.length_nil]; omega)
    (by
      intro k hk
      rw [b4 k (by omega), a3 k (by omega) (by omega), List.getElem?_drop]
      congr 1
      omega)
    (by intro k h1 h2; exact b3 k h1 h2)
    (by
      intro k hk
      rw [List.getElem?_eq_none (by rw [hl]; omega)]
      simp)
  refine ⟨s2, Z, ?_, b2, by omega, by rw [z2]; simp, ?_⟩
  · simp only [hd, a1, Option.bind_eq_bind, Option.bind_some, b1]; rfl
  · intro c hc
    rw [b5 c hc, a6 c hc]

theorem pushFrontP416_spec (L : Laws ops I get el fv fi) (hn : el.Nodup) {st : Stack}
    (hst : st.elements = el) (hpos : 0 < el.length) (hnext : st.next ≤ el.length) (num : Nat)
    (hov : st.next + num < 2 ^ 64) {s : σ} (hI : I s) :
    ∃ (s' : σ) (Z : List α), pushFrontP416 ops st num s
        = some (min el.length num, { st with next := min el.length (st.next + num) }, s') ∧ I s' ∧
      Z.length = min el.length num ∧
      view get el s' = Z.map fi ++ (view get el s).take (el.length - num) ∧
      ∀ c, c ∉ el → get s' c = get s c := by
  unfold pushFrontP416
  have hl := view_length (get := get) (el := el)
  by_cases h0 : num = 0
  · subst h0
    refine ⟨s, [], ?_, hI, by simp, ?_, fun _ _ => rfl⟩
    · rw [if_pos rfl]
      have : min el.length st.next = st.next := by omega
      simp [this]
    · simp only [List.map_nil, List.nil_append, Nat.sub_zero]
      rw [List.take_of_length_le (by rw [hl])]
  rw [if_neg h0, Nat.mod_eq_of_lt hov, hst]
  have hd : downCount el.length num = el.length - num := by
    unfold downCount
    rw [if_neg (by omega)]
  obtain ⟨s1, a1, a2, a3, a4, a5⟩ := swapDown_spec (num := num) L hn
    (st := { elements := el, next := min el.length (st.next + num) }) rfl (by omega)
    (el.length - num) s hI (by omega)
  obtain ⟨s2, b1, b2, b3, b4, b5⟩ := markAll_spec (mark := ops.markInvalid) L.markInvalid hn
    (st := { elements := el, next := min el.length (st.next + num) }) rfl
    (min el.length num) 0 s1 a2 (by omega)
  obtain ⟨Z, z1, z2⟩ := eq_three (A := view get el s2) (W := view get el s1) (f := fi)
    (X := []) (C := (view get el s).take (el.length - num))
    (i := 0) (n := min el.length num)
    (by rw [hl, hl]) (by rw [hl]; omega) rfl (by simp [hl]; omega)
    (by omega)
    (by intro k h1 h2; exact b3 k h1 h2)
    (by
      intro k hk
      rw [b4 k (by omega)]
      rcases Nat.lt_or_ge k el.length with hk2 | hk2
      · have := a3 (k - num) (by omega)
        rw [show num + (k - num) = k by omega] at this
        rw [this, List.getElem?_take_of_lt (by omega)]
        congr 1; omega
      · rw [List.getElem?_eq_none (by rw [hl]; omega),
          List.getElem?_eq_none (by simp [hl]; omega)])
  refine ⟨s2, Z, ?_, b2, z1, ?_, ?_⟩
  · simp only [hd, a1, Option.bind_eq_bind, Option.bind_some, b1]; rfl
  · rw [z2]; simp
  · intro c hc
    rw [b5 c hc, a5 c hc]

/-- The variants without an argument do the same as with argument 1. -/
theorem popFrontLegacy1_eq (st : Stack) (s : σ) :
    popFrontLegacy1 ops st s = popFrontLegacy ops st 1 s := by
  unfold popFrontLegacy1 popFrontLegacy
  by_cases h : st.next = 0
  · have h1 : min st.next 1 = 0 := by omega
    rw [if_pos h, if_neg (show ¬ (1 = 0) by decide)]
    simp only [h1, h]
    cases st
    simp only at h
    subst h
    rfl
  · have h1 : min st.next 1 = 1 := by omega
    rw [if_neg h, if_neg (show ¬ (1 = 0) by decide)]
    simp only [h1, markAll]
    cases st.elements[st.next - 1]? <;> simp

theorem pushFrontLegacy1_eq (st : Stack) (h : st.next ≤ st.elements.length)
    (hl : st.elements.length + 1 < 2 ^ 64) (s : σ) :
    pushFrontLegacy1 ops st s = pushFrontLegacy ops st 1 s := by
  unfold pushFrontLegacy1 pushFrontLegacy
  have e : (if st.next < st.elements.length then { st with next := st.next + 1 } else st)
      = { st with next := min st.elements.length ((st.next + 1) % 2 ^ 64) } := by
    rw [Nat.mod_eq_of_lt (by omega)]
    split
    · congr 1; omega
    · cases st; simp only at *; congr 1; omega
  rw [if_neg (show ¬ (1 = 0) by decide)]
  simp only [e]
  cases hE : st.elements with
  | nil =>
    have hc : downCount 0 1 = (2 ^ 64 - 2) + 1 := by decide
    simp only [List.length_nil, Nat.zero_min, hc, swapDown, swapAt, List.getElem?_nil,
      Option.bind_eq_bind, Option.bind_none]
  | cons a l =>
    have h1 : min (a :: l).length 1 = 1 := by simp
    simp only [h1, markAll, List.getElem?_cons_zero, Option.bind_eq_bind, Option.bind_some]
    simp

theorem popFrontP416_1_eq (st : Stack) (h : st.elements ≠ []) (s : σ) :
    popFrontP416_1 ops st s = popFrontP416 ops st 1 s := by
  unfold popFrontP416_1 popFrontP416
  have hp : 0 < st.elements.length := List.length_pos_of_ne_nil h
  have e : (if st.next > 0 then { st with next := st.next - 1 } else st)
      = { st with next := st.next - min st.next 1 } := by
    split
    · congr 1; omega
    · cases st; simp only at *; congr 1; omega
  have e2 : (if 1 < st.elements.length then st.elements.length - 1 else 0) = st.elements.length - 1 := by
    split <;> omega
  have e3 : st.elements.length - (st.elements.length - 1) = 1 := by omega
  rw [if_neg (show ¬ (1 = 0) by decide)]
  simp only [e, e2, e3, markAll]
  rw [show min 1 st.elements.length = 1 by omega]
  cases st.elements[st.elements.length - 1]? <;> simp

theorem pushFrontP416_1_eq (st : Stack) (h : st.next ≤ st.elements.length)
    (hl : st.elements.length + 1 < 2 ^ 64) (s : σ) :
    pushFrontP416_1 ops st s = pushFrontP416 ops st 1 s := by
  unfold pushFrontP416_1 pushFrontP416
  have e : (if st.next < st.elements.length then { st with next := st.next + 1 } else st)
      = { st with next := min st.elements.length ((st.next + 1) % 2 ^ 64) } := by
    rw [Nat.mod_eq_of_lt (by omega)]
    split
    · congr 1; omega
    · cases st; simp only at *; congr 1; omega
  rw [if_neg (show ¬ (1 = 0) by decide)]
  simp only [e]
  cases hE : st.elements with
  | nil =>
    have hc : downCount 0 1 = (2 ^ 64 - 2) + 1 := by decide
    simp only [List.length_nil, Nat.zero_min, hc, swapDown, swapAt, List.getElem?_nil,
      Option.bind_eq_bind, Option.bind_none]
  | cons a l =>
    have h1 : min (a :: l).length 1 = 1 := by simp
    simp only [h1, markAll, List.getElem?_cons_zero, Option.bind_eq_bind, Option.bind_some]
    simp

end Bm.Stack
