import Verif.Spec.Options

namespace Bm.Options

open Spec

/-! ## Interfaces -/

theorem digit_char {d : Nat} (h : d < 10) : (Char.ofNat (48 + d)).isDigit = true ∧ (Char.ofNat (48 + d)).toNat - 48 = d := by
  have : ∀ d : Fin 10, (Char.ofNat (48 + d.val)).isDigit = true ∧ (Char.ofNat (48 + d.val)).toNat - 48 = d.val := by decide
  exact this ⟨d, h⟩

theorem isDec_spec {ds : Str} {v : Nat} (h : IsDec ds v) : ds ≠ [] ∧ (∀ c ∈ ds, c.isDigit = true) ∧
    ds.foldl (fun a c => a * 10 + (c.toNat - 48)) 0 = v := by
  induction h with
  | one d hd => 
    refine ⟨by simp, ?_, ?_⟩
    · intro c hc; rw [List.mem_singleton.1 hc]; exact (digit_char hd).1
    · simp only [List.foldl_cons, List.foldl_nil, (digit_char hd).2]; omega
  | snoc ds v d _ hd ih =>
    refine ⟨by simp, ?_, ?_⟩
    · intro c hc
      rcases List.mem_append.1 hc with hc | hc
      · exact ih.2.1 c hc
      · rw [List.mem_singleton.1 hc]; exact (digit_char hd).1
    · rw [List.foldl_append, ih.2.2]
      simp only [List.foldl_cons, List.foldl_nil, (digit_char hd).2]; omega

theorem takeWhile_all {p : Char → Bool} {l : Str} (h : ∀ c ∈ l, p c = true) : l.takeWhile p = l := by
  induction l with
  | nil => rfl
  | cons c l ih =>
    rw [List.takeWhile_cons, if_pos (h c (by simp)), ih (fun c hc => h c (List.mem_cons_of_mem _ hc))]

theorem takeWhile_stop {p : Char → Bool} {l : Str} {x : Char} {r : Str} (h : ∀ c ∈ l, p c = true) (hx : p x = false) :
    (l ++ x :: r).takeWhile p = l ∧ (l ++ x :: r).dropWhile p = x :: r := by
  induction l with
  | nil => simp [hx]
  | cons c l ih =>
    have := ih (fun c hc => h c (List.mem_cons_of_mem _ hc))
    simp [h c (by simp), this]

theorem digit_not {c : Char} (h : c.isDigit = true) : isSpace c = false ∧ c ≠ '-' ∧ c ≠ '+' ∧ c ≠ '@' := by
  refine ⟨?_, ?_, ?_, ?_⟩
  · cases hs : isSpace c with
    | false => rfl
    | true =>
      simp only [isSpace, List.contains_eq_mem, List.mem_cons, List.not_mem_nil, or_false, decide_eq_true_eq] at hs
      rcases hs with rfl | rfl | rfl | rfl | rfl | rfl <;> revert h <;> decide
  all_goals rintro rfl; revert h; decide

theorem stoi_dec {ds : Str} {v : Nat} (h : IsDec ds v) (hv : v < 2 ^ 31) : stoi ds = some (v : Int) := by
  obtain ⟨h1, h2, h3⟩ := isDec_spec h
  obtain ⟨c, cs, rfl⟩ := List.exists_cons_of_ne_nil h1
  obtain ⟨g1, g2, g3, -⟩ := digit_not (h2 c (by simp))
  have e1 : (c :: cs).dropWhile isSpace = c :: cs := by simp [g1]
  have e2 : sign (c :: cs) = (false, c :: cs) := by
    unfold sign; split
    · rename_i hc; injection hc with hc; exact absurd hc g2
    · rename_i hc; injection hc with hc; exact absurd hc g3
    · rfl
  simp only [stoi, e1, e2]
  rw [takeWhile_all h2, h3]
  simp only [List.isEmpty_cons, Bool.false_eq_true, if_false]
  rw [if_pos (by omega)]

theorem readIface_text {t : Str} {p : Nat} {n : Str} (h : IfaceText t p n) : readIface t = some (p, n) := by
  obtain ⟨ds, hd, rfl, hp, hn⟩ := h
  obtain ⟨-, h2, -⟩ := isDec_spec hd
  obtain ⟨e1, e2⟩ := takeWhile_stop (p := (· != '@')) (l := ds) (x := '@') (r := n)
    (fun c hc => by simpa using (digit_not (h2 c hc)).2.2.2) (by simp)
  simp only [readIface, e1, e2, stoi_dec hd hp]
  rw [if_neg (by intro e; have := congrArg List.length e; simp at this)]
  simp only [List.drop_succ_cons, List.drop_zero]
  rw [takeWhile_all (fun c hc => by simp; rintro rfl; exact hn hc)]
  congr 2
  omega

theorem readIface_noAt {t : Str} (h : '@' ∉ t) : readIface t = none := by
  have e : t.takeWhile (· != '@') = t := takeWhile_all (fun c hc => by simp; rintro rfl; exact h hc)
  simp only [readIface, e]
  split <;> simp

theorem ifaceText_unique {t : Str} {p q : Nat} {n m : Str} (h : IfaceText t p n) (h' : IfaceText t q m) : p = q ∧ n = m := by
  have := (readIface_text h).symm.trans (readIface_text h')
  simpa using this

/-! ## The map of interfaces -/

def Sorted (l : List (Nat × Str)) : Prop := l.Pairwise (fun x y => x.1 < y.1)

theorem mem_ifaceAdd {l : List (Nat × Str)} (hs : Sorted l) (p : Nat) (n : Str) (x : Nat × Str) :
    x ∈ ifaceAdd p n l ↔ x = (p, n) ∨ (x ∈ l ∧ x.1 ≠ p) := by
  induction l with
  | nil => simp [ifaceAdd]
  | cons y l ih =>
    obtain ⟨q, m⟩ := y
    obtain ⟨h1, h2⟩ := List.pairwise_cons.1 hs
    simp only at h1
    rw [ifaceAdd]
    split
    · rename_i hlt
      constructor
      · intro hx
        rcases List.mem_cons.1 hx with hx | hx
        · exact .inl hx
        · refine .inr ⟨hx, ?_⟩
          rcases List.mem_cons.1 hx with rfl | hx
          · simp only; omega
          · have := h1 x hx; omega
      · rintro (rfl | ⟨hx, -⟩)
        · simp
        · exact List.mem_cons_of_mem _ hx
    · split
      · rename_i _ e
        subst e
        constructor
        · intro hx
          rcases List.mem_cons.1 hx with hx | hx
          · exact .inl hx
          · exact .inr ⟨List.mem_cons_of_mem _ hx, by have := h1 x hx; omega⟩
        · rintro (rfl | ⟨hx, hne⟩)
          · simp
          · rcases List.mem_cons.1 hx with rfl | hx
            · exact absurd rfl hne
            · exact List.mem_cons_of_mem _ hx
      · rename_i _ hne
        rw [List.mem_cons, ih h2, List.mem_cons]
        constructor
        · rintro (rfl | h | ⟨h, g⟩)
          · exact .inr ⟨.inl rfl, fun e => hne e.symm⟩
          · exact .inl h
          · exact .inr ⟨.inr h, g⟩
        · rintro (h | ⟨h | h, g⟩)
          · exact .inr (.inl h)
          · exact .inl h
          · exact .inr (.inr ⟨h, g⟩)

theorem sorted_ifaceAdd {l : List (Nat × Str)} (hs : Sorted l) (p : Nat) (n : Str) : Sorted (ifaceAdd p n l) := by
  induction l with
  | nil => simp [ifaceAdd, Sorted]
  | cons y l ih =>
    obtain ⟨q, m⟩ := y
    obtain ⟨h1, h2⟩ := List.pairwise_cons.1 hs
    simp only at h1
    rw [ifaceAdd]
    split
    · rename_i hlt
      refine List.pairwise_cons.2 ⟨?_, hs⟩
      intro x hx
      rcases List.mem_cons.1 hx with rfl | hx
      · exact hlt
      · have := h1 x hx; simp only; omega
    · split
      · rename_i _ e
        subst e
        exact List.pairwise_cons.2 ⟨h1, h2⟩
      · rename_i hlt hne
        refine List.pairwise_cons.2 ⟨?_, ih h2⟩
        intro x hx
        rcases (mem_ifaceAdd h2 p n x).1 hx with rfl | ⟨hx, -⟩
        · simp only; omega
        · exact h1 x hx

theorem readIfaces_snoc (ts : List Str) (t : Str) : readIfaces (ts ++ [t]) =
    (match readIface t with | some (p, n) => ifaceAdd p n (readIfaces ts) | none => readIfaces ts) := by
  rw [readIfaces, List.foldl_append]; rfl

theorem texts_append (a b : Args) (o : Opt) : texts (a ++ b) o = texts a o ++ texts b o := by
  simp [texts, List.filterMap_append]

theorem mem_texts (a : Args) (o : Opt) (t : Str) : t ∈ texts a o ↔ (o, .text t) ∈ a := by
  simp only [texts, List.mem_filterMap]
  constructor
  · rintro ⟨⟨o', v⟩, hm, hv⟩
    simp only at hv
    split at hv
    · rename_i e
      subst e
      split at hv
      · rename_i s
        simp only [Option.some.injEq] at hv
        subst hv
        exact hm
      · simp at hv
    · simp at hv
  · intro h
    exact ⟨_, h, by simp⟩

/-- The map holds the last name of each port. -/
theorem readIfaces_spec (a : Args) (hg : ∀ t, (.interface, .text t) ∈ a → ∃ p n, IfaceText t p n) :
    Sorted (readIfaces (texts a .interface)) ∧ ∀ p n, (p, n) ∈ readIfaces (texts a .interface) ↔
      ∃ a₁ t a₂, a = a₁ ++ (.interface, .text t) :: a₂ ∧ IfaceText t p n ∧ ∀ t' m, (.interface, .text t') ∈ a₂ → ¬ IfaceText t' p m := by
  suffices H : ∀ r : Args, (∀ t, (.interface, .text t) ∈ r.reverse → ∃ p n, IfaceText t p n) →
      Sorted (readIfaces (texts r.reverse .interface)) ∧ ∀ p n, (p, n) ∈ readIfaces (texts r.reverse .interface) ↔
      ∃ a₁ t a₂, r.reverse = a₁ ++ (.interface, .text t) :: a₂ ∧ IfaceText t p n ∧
        ∀ t' m, (.interface, .text t') ∈ a₂ → ¬ IfaceText t' p m by
    have := H a.reverse (by simpa using hg)
    simpa using this
  intro r
  induction r with
  | nil => intro _; simp [texts, readIfaces, Sorted]
  | cons x r ih =>
    intro hg
    rw [List.reverse_cons] at hg ⊢
    obtain ⟨ih1, ih2⟩ := ih (fun t ht => hg t (List.mem_append.2 (.inl ht)))
    rw [texts_append]
    have split_last : ∀ (a₁ a₂ : Args) y, r.reverse ++ [x] = a₁ ++ y :: a₂ →
        (a₂ = [] ∧ y = x) ∨ ∃ a₃, a₂ = a₃ ++ [x] ∧ r.reverse = a₁ ++ y :: a₃ := by
      intro a₁ a₂ y h
      rcases List.eq_nil_or_concat a₂ with rfl | ⟨a₃, z, rfl⟩
      · have := List.append_inj' h rfl
        simp at this
        exact .inl ⟨rfl, this.2.symm⟩
      · rw [List.concat_eq_append] at h
        have h' : r.reverse ++ [x] = (a₁ ++ y :: a₃) ++ [z] := by rw [h]; simp
        have := List.append_inj' h' rfl
        simp at this
        refine .inr ⟨a₃, ?_, by simpa using congrArg List.reverse (show r = (a₁ ++ y :: a₃).reverse by simp [this.1])⟩
        rw [List.concat_eq_append, this.2]
    by_cases hx : ∃ t, x = (.interface, .text t)
    · obtain ⟨t, rfl⟩ := hx
      obtain ⟨q, m, hqm⟩ := hg t (by simp)
      have e1 : texts [((.interface, .text t) : Opt × Val)] .interface = [t] := by simp [texts]
      rw [e1, readIfaces_snoc, readIface_text hqm]
      simp only
      refine ⟨sorted_ifaceAdd ih1 q m, ?_⟩
      intro p n
      rw [mem_ifaceAdd ih1, ih2]
      constructor
      · rintro (h | ⟨⟨a₁, t', a₂, h1, h2, h3⟩, hne⟩)
        · injection h with e2 e3; subst e2 e3
          exact ⟨r.reverse, t, [], rfl, hqm, by simp⟩
        · refine ⟨a₁, t', a₂ ++ [(.interface, .text t)], by rw [h1]; simp, h2, ?_⟩
          intro t'' m' ht
          rcases List.mem_append.1 ht with ht | ht
          · exact h3 t'' m' ht
          · simp only [List.mem_singleton, Prod.mk.injEq, true_and, Val.text.injEq] at ht
            subst ht
            intro hh
            exact hne (ifaceText_unique hh hqm).1
      · rintro ⟨a₁, t', a₂, h1, h2, h3⟩
        rcases split_last _ _ _ h1 with ⟨rfl, e⟩ | ⟨a₃, rfl, hr⟩
        · simp only [Prod.mk.injEq, true_and, Val.text.injEq] at e
          subst e
          obtain ⟨rfl, rfl⟩ := ifaceText_unique h2 hqm
          exact .inl rfl
        · right
          refine ⟨⟨a₁, t', a₃, hr, h2, fun t'' m' ht => h3 t'' m' (List.mem_append.2 (.inl ht))⟩, ?_⟩
          intro e
          simp only at e
          subst e
          exact h3 t m (by simp) hqm
    · have e1 : texts [x] .interface = [] := by
        apply List.eq_nil_iff_forall_not_mem.2
        intro t ht
        rw [mem_texts, List.mem_singleton] at ht
        exact hx ⟨t, ht.symm⟩
      rw [e1, List.append_nil]
      refine ⟨ih1, fun p n => ?_⟩
      rw [ih2]
      constructor
      · rintro ⟨a₁, t', a₂, h1, h2, h3⟩
        refine ⟨a₁, t', a₂ ++ [x], by rw [h1]; simp, h2, ?_⟩
        intro t'' m' ht
        rcases List.mem_append.1 ht with ht | ht
        · exact h3 t'' m' ht
        · rw [List.mem_singleton] at ht
          exact absurd ⟨t'', ht.symm⟩ hx
      · rintro ⟨a₁, t', a₂, h1, h2, h3⟩
        rcases split_last _ _ _ h1 with ⟨rfl, e⟩ | ⟨a₃, rfl, hr⟩
        · exact absurd ⟨t', e.symm⟩ hx
        · exact ⟨a₁, t', a₃, hr, h2, fun t'' m' ht => h3 t'' m' (List.mem_append.2 (.inl ht))⟩

/-! ## Values of options -/

theorem count_iff (a : Args) (o : Opt) : count a o = true ↔ Given a o := by
  simp only [count, List.any_eq_true, decide_eq_true_eq, Given]
  constructor
  · rintro ⟨⟨o', v⟩, h, rfl⟩; exact ⟨v, h⟩
  · rintro ⟨v, h⟩; exact ⟨_, h, rfl⟩

theorem find_unique {a : Args} {o : Opt} {v : Val} (hm : (o, v) ∈ a) (hc : a.countP (fun x => x.1 = o) ≤ 1) :
    a.find? (fun x => x.1 = o) = some (o, v) := by
  induction a with
  | nil => simp at hm
  | cons x a ih =>
    by_cases hx : x.1 = o
    · rw [List.find?_cons_of_pos (by simpa using hx)]
      rw [List.countP_cons_of_pos (by simpa using hx)] at hc
      rcases List.mem_cons.1 hm with h | h
      · rw [h]
      · have : 0 < a.countP (fun x => x.1 = o) := List.countP_pos_iff.2 ⟨_, h, by simp⟩
        omega
    · rw [List.find?_cons_of_neg (by simpa using hx)]
      rw [List.countP_cons_of_neg (by simpa using hx)] at hc
      rcases List.mem_cons.1 hm with h | h
      · rw [← h] at hx; exact absurd rfl hx
      · exact ih h hc

theorem find_none {a : Args} {o : Opt} (h : ¬ Given a o) : a.find? (fun x => x.1 = o) = none := by
  rw [List.find?_eq_none]
  rintro ⟨o', v⟩ hx e
  simp only [decide_eq_true_eq] at e
  subst e
  exact h ⟨v, hx⟩

/-- The command line is in order. -/
def Once (a : Args) : Prop := ∀ o, o ≠ .interface → o ≠ .further → a.countP (fun x => x.1 = o) ≤ 1

theorem text_some {a : Args} {o : Opt} {s : Str} (hm : (o, .text s) ∈ a) (hc : a.countP (fun x => x.1 = o) ≤ 1) :
    text? a o = some s := by
  simp only [text?]; rw [find_unique hm hc]

theorem num_some {a : Args} {o : Opt} {n : Int} (hm : (o, .num n) ∈ a) (hc : a.countP (fun x => x.1 = o) ≤ 1) :
    num? a o = some n := by
  simp only [num?]; rw [find_unique hm hc]

theorem text_none {a : Args} {o : Opt} (h : ¬ Given a o) : text? a o = none := by
  simp only [text?]; rw [find_none h]

theorem num_none {a : Args} {o : Opt} (h : ¬ Given a o) : num? a o = none := by
  simp only [num?]; rw [find_none h]

theorem given_text {a : Args} {o : Opt} (ht : Typed a) (hk : kind o = .text) (h : Given a o) : ∃ s, (o, .text s) ∈ a := by
  obtain ⟨v, hv⟩ := h
  rcases ht o v hv with ⟨h, -⟩ | ⟨-, s, rfl⟩ | ⟨h, -⟩
  · rw [hk] at h; cases h
  · exact ⟨s, hv⟩
  · rw [hk] at h; cases h

theorem given_num {a : Args} {o : Opt} (ht : Typed a) (hk : kind o = .num) (h : Given a o) : ∃ n, (o, .num n) ∈ a := by
  obtain ⟨v, hv⟩ := h
  rcases ht o v hv with ⟨h, -⟩ | ⟨h, -⟩ | ⟨-, n, rfl⟩
  · rw [hk] at h; cases h
  · rw [hk] at h; cases h
  · exact ⟨n, hv⟩

theorem textIs {a : Args} {o : Opt} (ht : Typed a) (hk : kind o = .text) (hc : a.countP (fun x => x.1 = o) ≤ 1) (d : Str) :
    TextIs a o d ((text? a o).getD d) := by
  by_cases h : Given a o
  · obtain ⟨s, hs⟩ := given_text ht hk h
    rw [text_some hs hc]; exact .inl hs
  · rw [text_none h]; exact .inr ⟨h, rfl⟩

theorem numIs {a : Args} {o : Opt} (ht : Typed a) (hk : kind o = .num) (hc : a.countP (fun x => x.1 = o) ≤ 1) (d : Int) :
    NumIs a o d ((num? a o).getD d) := by
  by_cases h : Given a o
  · obtain ⟨s, hs⟩ := given_num ht hk h
    rw [num_some hs hc]; exact .inl hs
  · rw [num_none h]; exact .inr ⟨h, rfl⟩

/-! ## Refusals -/

theorem store_iff {a : Args} (hcl : Clean a) : store a = false ↔ Malformed a := by
  constructor
  · intro h
    apply Classical.byContradiction; intro hm
    have hm1 : ¬ Given a .warnOnInvalidHdrRead ∧ ¬ Given a .retZeroOnInvalidHdrRead :=
      ⟨fun hh => hm (.inl (.inl hh)), fun hh => hm (.inl (.inr hh))⟩
    have hm2 : Once a := by
      intro o h1 h2
      apply Classical.byContradiction; intro h3
      exact hm (.inr (.inl ⟨o, h1, h2, by omega⟩))
    have : store a = true := by
      rw [store, Bool.and_eq_true, List.all_eq_true, List.all_eq_true]
      refine ⟨?_, ?_⟩
      · rintro ⟨o, v⟩ hx
        have hd : o.declared = true := by
          cases o
          case warnOnInvalidHdrRead => exact absurd ⟨v, hx⟩ hm1.1
          case retZeroOnInvalidHdrRead => exact absurd ⟨v, hx⟩ hm1.2
          all_goals rfl
        rw [Bool.and_eq_true]
        refine ⟨hd, ?_⟩
        by_cases hc : o.composing = true
        · simp [hc]
        · have := hm2 o (by rintro rfl; exact hc rfl) (by rintro rfl; exact hc rfl)
          simp [this]
      · intro t ht
        rw [mem_texts] at ht
        rcases hcl t ht with ⟨p, n, hh⟩ | hh
        · rw [readIface_text hh]; rfl
        · exact absurd (.inr (.inr ⟨t, ht, hh⟩)) hm
    rw [h] at this; cases this
  · intro hm
    cases hs : store a with
    | false => rfl
    | true =>
      exfalso
      rw [store, Bool.and_eq_true, List.all_eq_true, List.all_eq_true] at hs
      obtain ⟨h1, h2⟩ := hs
      rcases hm with (⟨v, hv⟩ | ⟨v, hv⟩) | ⟨o, g1, g2, g3⟩ | ⟨t, g1, g2⟩
      · have := h1 _ hv; simp [Opt.declared] at this
      · have := h1 _ hv; simp [Opt.declared] at this
      · obtain ⟨⟨o', v⟩, hx, e⟩ := List.countP_pos_iff.1 (show 0 < a.countP (fun x => x.1 = o) by omega)
        simp only [decide_eq_true_eq] at e
        subst e
        have := h1 _ hx
        rw [Bool.and_eq_true, Bool.or_eq_true, decide_eq_true_eq] at this
        rcases this.2 with h | h
        · cases o' <;> simp_all [Opt.composing]
        · simp only at h; omega
      · have := h2 t ((mem_texts _ _ _).2 g1)
        rw [readIface_noAt g2] at this
        simp at this

theorem once_of {a : Args} (h : ¬ Malformed a) : Once a := by
  intro o h1 h2
  apply Classical.byContradiction; intro h3
  exact h (.inr (.inl ⟨o, h1, h2, by omega⟩))

theorem levels_iff (l : Str) (v : Level) : levels.lookup l = some v ↔ (levelName v).map String.toList = some l := by
  have t1 : "trace".toList = ['t', 'r', 'a', 'c', 'e'] := by decide
  have t2 : "debug".toList = ['d', 'e', 'b', 'u', 'g'] := by decide
  have t3 : "info".toList = ['i', 'n', 'f', 'o'] := by decide
  have t4 : "warn".toList = ['w', 'a', 'r', 'n'] := by decide
  have t5 : "error".toList = ['e', 'r', 'r', 'o', 'r'] := by decide
  have t6 : "off".toList = ['o', 'f', 'f'] := by decide
  constructor
  · intro h
    simp only [levels, List.lookup_cons] at h
    repeat' split at h
    all_goals first
      | (rename_i e; rw [beq_iff_eq] at e; subst e; cases h; simp only [levelName, Option.map_some, t1, t2, t3, t4, t5, t6])
      | skip
    all_goals simp at h
  · intro h
    cases v <;> simp only [levelName, Option.map_some, Option.map_none, t1, t2, t3, t4, t5, t6] at h <;>
      first | (obtain rfl := Option.some.inj h; decide) | cases h

/-- The checks after `help` and the like. -/
def bad (isDir : Str → Bool) (a : Args) : Bool :=
  (!count a .noP4 && !count a .input) || (count a .logConsole && count a .logFile) || (levelOf a).isNone ||
    (count a .logFileMaxSize && count a .logFile && num? a .logFileMaxSize = some 0) ||
    (!((text? a .pcap).getD []).isEmpty && !isDir ((text? a .pcap).getD [])) ||
    (count a .useFiles && count a .packetIn) || decide ((num? a .maxPortCount).getD 512 < 0)

theorem bad_iff {isDir : Str → Bool} {a : Args} (ht : Typed a) (ho : Once a) : bad isDir a = true ↔ Contradictory isDir a := by
  have hn : ∀ o, count a o = false ↔ ¬ Given a o := by
    intro o; rw [← count_iff]; simp
  have c1 := ho .logLevel (by decide) (by decide)
  have c2 := ho .logFileMaxSize (by decide) (by decide)
  have c3 := ho .pcap (by decide) (by decide)
  have c4 := ho .maxPortCount (by decide) (by decide)
  have l1 : (levelOf a).isNone = true ↔ ∃ l, (.logLevel, .text l) ∈ a ∧ ∀ v, (levelName v).map String.toList ≠ some l := by
    by_cases hg : Given a .logLevel
    · obtain ⟨l, hl⟩ := given_text ht rfl hg
      simp only [levelOf]
      rw [text_some hl c1]
      simp only [Option.isNone_iff_eq_none]
      constructor
      · intro h; exact ⟨l, hl, fun v hv => by rw [(levels_iff l v).2 hv] at h; cases h⟩
      · rintro ⟨l', hl', h⟩
        have : l' = l := by
          have := (text_some hl' c1).symm.trans (text_some hl c1)
          exact Option.some.inj this
        subst this
        cases hh : levels.lookup l' with
        | none => rfl
        | some v => exact absurd ((levels_iff l' v).1 hh) (h v)
    · simp only [levelOf]
      rw [text_none hg]
      constructor
      · intro h; cases h
      · rintro ⟨l, hl, -⟩; exact absurd ⟨_, hl⟩ hg
  have l2 : num? a .logFileMaxSize = some 0 ↔ (.logFileMaxSize, .num 0) ∈ a := by
    constructor
    · intro h
      by_cases hg : Given a .logFileMaxSize
      · obtain ⟨n, hn'⟩ := given_num ht rfl hg
        rw [num_some hn' c2] at h
        rw [← Option.some.inj h]; exact hn'
      · rw [num_none hg] at h; cases h
    · intro h; exact num_some h c2
  have l3 : (((text? a .pcap).getD []).isEmpty = false ∧ isDir ((text? a .pcap).getD []) = false) ↔
      ∃ d, (.pcap, .text d) ∈ a ∧ d ≠ [] ∧ isDir d = false := by
    constructor
    · intro h
      rcases textIs ht (o := .pcap) rfl c3 [] with hh | ⟨-, hh⟩
      · exact ⟨_, hh, by intro e; rw [e] at h; simp at h, h.2⟩
      · rw [hh] at h; simp at h
    · rintro ⟨d, h1, h2, h3⟩
      rw [text_some h1 c3]
      refine ⟨?_, h3⟩
      cases d with
      | nil => exact absurd rfl h2
      | cons => rfl
  have l4 : (num? a .maxPortCount).getD 512 < 0 ↔ ∃ n, n < 0 ∧ (.maxPortCount, .num n) ∈ a := by
    constructor
    · intro h
      rcases numIs ht (o := .maxPortCount) rfl c4 512 with hh | ⟨-, hh⟩
      · exact ⟨_, h, hh⟩
      · omega
    · rintro ⟨n, h1, h2⟩
      rw [num_some h2 c4]; exact h1
  have l5 : (.logFileMaxSize, .num 0) ∈ a → Given a .logFileMaxSize := fun h => ⟨_, h⟩
  simp only [bad, Contradictory, Bool.or_eq_true, Bool.and_eq_true, Bool.not_eq_true', hn, count_iff, l1, l2, l3, l4, decide_eq_true_eq]
  constructor
  · rintro ((((((h | h) | h) | h) | h) | h) | h)
    · exact .inl h
    · exact .inr (.inl h)
    · exact .inr (.inr (.inl h))
    · exact .inr (.inr (.inr (.inl ⟨h.2, h.1.2⟩)))
    · exact .inr (.inr (.inr (.inr (.inl h))))
    · exact .inr (.inr (.inr (.inr (.inr (.inl h)))))
    · exact .inr (.inr (.inr (.inr (.inr (.inr h)))))
  · rintro (h | h | h | h | h | h | h)
    · exact .inl (.inl (.inl (.inl (.inl (.inl h)))))
    · exact .inl (.inl (.inl (.inl (.inl (.inr h)))))
    · exact .inl (.inl (.inl (.inl (.inr h))))
    · exact .inl (.inl (.inl (.inr ⟨⟨l5 h.1, h.2⟩, h.1⟩)))
    · exact .inl (.inl (.inr h))
    · exact .inl (.inr h)
    · exact .inr h

/-- The settings of a command line which is in order. -/
def settings (tp : Bool) (a : Args) (level : Level) : Parsed :=
  let dir := (text? a .pcap).getD []
  let id := (num? a .deviceId).getD 0
  { config := if count a .noP4 then [] else (text? a .input).getD []
    noP4 := count a .noP4
    ifaces := if count a .packetIn then [] else readIfaces (texts a .interface)
    pcap := !dir.isEmpty
    pcapDir := dir
    thriftPort := (num? a .thriftPort).getD 9090
    deviceId := id
    useFiles := count a .useFiles
    waitTime := let w := (num? a .useFiles).getD 0; if w < 0 then 0 else w
    packetIn := count a .packetIn
    packetInAddr := (text? a .packetIn).getD []
    eventLogger := (text? a .nanolog).getD []
    fileLogger := (text? a .logFile).getD []
    console := count a .logConsole
    logLevel := level
    logFlush := count a .logFlush && count a .logFile
    logMaxSize := if count a .logFile then (num? a .logFileMaxSize).getD (1024 * 1024 * 5) else 1024 * 1024 * 5
    logMaxFiles := if count a .logFile then (num? a .logFileMaxFiles).getD 3 else 3
    notifications := (text? a .notificationsAddr).getD (ipcAddr id "-notifications.ipc")
    debugger := count a .debuggerAddr || count a .debugger
    debuggerAddr := if count a .debuggerAddr then (text? a .debuggerAddr).getD []
      else if count a .debugger then ipcAddr id "-debug.ipc" else []
    stateFile := (text? a .restoreState).getD []
    dump := (num? a .dumpPacketData).getD 0
    maxPorts := (num? a .maxPortCount).getD 512
    provided := defaulted ++ a.map Prod.fst
    warnInvalid := count a .warnOnInvalidHdrRead
    retZero := count a .retZeroOnInvalidHdrRead
    target := if tp then some (furtherArgs a) else none }

theorem parse_eq (isDir : Str → Bool) (tp : Bool) (a : Args) : parse isDir tp a =
    if store a = false then .exit 1
    else if count a .help || count a .version || count a .jsonVersion then .exit 0
    else if bad isDir a then .exit 1 else .ok (settings tp a ((levelOf a).getD .trace)) := by
  unfold parse
  cases h1 : store a <;> simp only [Bool.not_true, Bool.not_false, Bool.false_eq_true, if_true, if_false, reduceCtorEq]
  cases h2 : count a .help <;> cases h3 : count a .version <;> cases h4 : count a .jsonVersion <;>
    simp only [Bool.or_false, Bool.or_true, Bool.false_eq_true, if_true, if_false]
  have pos : ∀ {x : Out}, bad isDir a = true → (if bad isDir a = true then Out.exit 1 else x) = .exit 1 := fun h => if_pos h
  by_cases b1 : (!count a .noP4 && !count a .input) = true
  · rw [if_pos b1, pos (by unfold bad; simp only [b1, Bool.true_or])]
  by_cases b2 : (count a .logConsole && count a .logFile) = true
  · rw [if_neg b1, if_pos b2, pos (by unfold bad; simp only [b2, Bool.true_or, Bool.or_true])]
  rw [if_neg b1, if_neg b2]
  cases hl : levelOf a with
  | none => rw [pos (by unfold bad; simp [hl])]
  | some level =>
    simp only [Option.getD_some]
    by_cases b3 : (count a .logFileMaxSize && count a .logFile && decide (num? a .logFileMaxSize = some 0)) = true
    · rw [if_pos b3, pos (by unfold bad; simp only [b3, Bool.or_true, Bool.true_or])]
    rw [if_neg b3]
    by_cases b4 : (!((text? a .pcap).getD []).isEmpty && !isDir ((text? a .pcap).getD [])) = true
    · rw [if_pos b4, pos (by unfold bad; simp only [b4, Bool.or_true, Bool.true_or])]
    rw [if_neg b4]
    by_cases b5 : (count a .useFiles && count a .packetIn) = true
    · rw [if_pos b5, pos (by unfold bad; simp only [b5, Bool.or_true, Bool.true_or])]
    rw [if_neg b5]
    by_cases b6 : (num? a .maxPortCount).getD 512 < 0
    · rw [if_pos b6, pos (by unfold bad; simp only [b6, decide_true, Bool.or_true])]
    rw [if_neg b6]
    have hb : bad isDir a = false := by
      rw [Bool.not_eq_true] at b1 b2 b3 b4 b5
      unfold bad
      rw [b1, b2, b3, b4, b5, hl, decide_eq_false b6]; rfl
    rw [hb]
    rfl

end Bm.Options
