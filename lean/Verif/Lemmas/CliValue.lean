import Verif.Lemmas.Cli
import Mathlib.Tactic.Ring
import Mathlib.Tactic.Push
import Mathlib.Tactic.NormNum

/-!
# Lemmas about the command line tool: strings, values, match fields
-/

namespace Bm.Cli
open Bm.Spec Bm.Cli.Spec Bm.Thrift

/-! ## The monad -/

@[simp] theorem out_bind_ok {α β : Type} (a : α) (f : α → Out β) : (Out.ok a >>= f) = f a := rfl
@[simp] theorem out_bind_err {α β : Type} (f : α → Out β) : (Out.err >>= f) = .err := rfl
@[simp] theorem out_bind_crash {α β : Type} (f : α → Out β) : (Out.crash >>= f) = .crash := rfl
@[simp] theorem out_pure {α : Type} (a : α) : (pure a : Out α) = .ok a := rfl
@[simp] theorem out_bind' {α β : Type} (x : Out α) (f : α → Out β) : x.bind f = (x >>= f) := rfl

theorem bind_ok {α β : Type} {x : Out α} {f : α → Out β} {b : β} (h : (x >>= f) = .ok b) : ∃ a, x = .ok a ∧ f a = .ok b := by
  cases x with
  | ok a => exact ⟨a, rfl, h⟩
  | err => cases h
  | crash => cases h

theorem of_err_ok {α : Type} {x : Option α} {a : α} (h : Out.of .err x = .ok a) : x = some a := by
  cases x with
  | none => cases h
  | some y => cases h; rfl

theorem of_crash_ok {α : Type} {x : Option α} {a : α} (h : Out.of .crash x = .ok a) : x = some a := by
  cases x with
  | none => cases h
  | some y => cases h; rfl

theorem of_some {α : Type} {e : Out α} {x : Option α} {a : α} (h : x = some a) : Out.of e x = .ok a := by subst h; rfl

theorem guard_ok {e : Out Unit} (he : e ≠ .ok ()) {p : Prop} [Decidable p] {u : Unit} (h : Out.guard e p = .ok u) : p := by
  unfold Out.guard at h
  split at h
  · assumption
  · exact absurd h he

theorem guard_pos {e : Out Unit} {p : Prop} [Decidable p] (h : p) : Out.guard e p = .ok () := if_pos h

/-! ## Strings -/

theorem split_ne (sep : Char) (s : Text) : split sep s ≠ [] := by
  cases s with
  | nil => simp [split]
  | cons c cs =>
    simp only [split]
    split
    · simp
    · split <;> simp

theorem join_split (sep : Char) : ∀ s : Text, join sep (split sep s) = s
  | [] => rfl
  | c :: cs => by
    have ih := join_split sep cs
    simp only [split]
    split
    · next h =>
      cases hs : split sep cs with
      | nil => exact absurd hs (split_ne sep cs)
      | cons t ts => rw [hs] at ih; rw [h]; simp [join, ih]
    · cases hs : split sep cs with
      | nil => exact absurd hs (split_ne sep cs)
      | cons t ts =>
        rw [hs] at ih
        cases ts with
        | nil => simp only [join] at ih ⊢; rw [ih]
        | cons t' ts => simp only [join] at ih ⊢; rw [List.cons_append, ih]

theorem split_no (sep : Char) : ∀ (s : Text), ∀ t ∈ split sep s, sep ∉ t
  | [] => by simp [split]
  | c :: cs => by
    have ih := split_no sep cs
    simp only [split]
    split
    · intro t ht
      rcases List.mem_cons.1 ht with rfl | ht
      · simp
      · exact ih t ht
    · next h =>
      split
      · simp [Ne.symm h]
      · next t ts hs =>
        rw [hs] at ih
        intro t' ht
        rcases List.mem_cons.1 ht with rfl | ht
        · have := ih t (by simp)
          simp [Ne.symm h, this]
        · exact ih t' (by simp [ht])

theorem split_no_sep {sep : Char} : ∀ {s : Text}, sep ∉ s → split sep s = [s]
  | [], _ => rfl
  | c :: cs, h => by
    have h1 : c ≠ sep := fun e => h (by simp [e])
    have h2 : sep ∉ cs := fun e => h (by simp [e])
    simp only [split]
    rw [if_neg h1, split_no_sep h2]

theorem split_append {sep : Char} : ∀ {t s : Text}, sep ∉ t → split sep (t ++ sep :: s) = t :: split sep s
  | [], s, _ => by simp [split]
  | c :: cs, s, h => by
    have h1 : c ≠ sep := fun e => h (by simp [e])
    have h2 : sep ∉ cs := fun e => h (by simp [e])
    rw [List.cons_append]
    simp only [split]
    rw [if_neg h1, split_append h2]

theorem split_join {sep : Char} : ∀ {ts : List Text}, ts ≠ [] → (∀ t ∈ ts, sep ∉ t) → split sep (join sep ts) = ts
  | [], h, _ => absurd rfl h
  | [t], _, h => split_no_sep (h t (by simp))
  | t :: t' :: ts, _, h => by
    rw [join, split_append (h t (by simp)), split_join (by simp) fun x hx => h x (by simp [hx])]
    simp

theorem join_mem {sep : Char} {t t' : Text} {ts : List Text} : sep ∈ join sep (t :: t' :: ts) := by simp [join]

theorem mem_join {sep c : Char} : ∀ {ts : List Text}, c ∈ join sep ts → c = sep ∨ ∃ t ∈ ts, c ∈ t
  | [], h => by simp [join] at h
  | [t], h => .inr ⟨t, by simp, h⟩
  | t :: t' :: ts, h => by
    rw [join, List.mem_append, List.mem_cons] at h
    · rcases h with h | h | h
      · exact .inr ⟨t, by simp, h⟩
      · exact .inl h
      · rcases mem_join h with h | ⟨x, hx, h⟩
        · exact .inl h
        · exact .inr ⟨x, by simp [hx], h⟩
    · simp

theorem cut_some {sep : Text} : ∀ {s a b : Text}, cut sep s = some (a, b) → s = a ++ sep ++ b
  | [], a, b, h => by simp [cut] at h
  | c :: cs, a, b, h => by
    simp only [cut] at h
    split at h
    · next hp =>
      cases h
      obtain ⟨r, hr⟩ := List.isPrefixOf_iff_prefix.1 hp
      rw [← hr]
      simp
    · obtain ⟨x, hx, e⟩ := Option.map_eq_some_iff.1 h
      obtain ⟨a', b'⟩ := x
      cases e
      simp [cut_some hx]

theorem cut_no {x : Char} {sep : Text} (hx : x ∈ sep) : ∀ {s : Text}, x ∉ s → cut sep s = none
  | [], _ => rfl
  | c :: cs, h => by
    simp only [cut]
    rw [if_neg, cut_no hx fun e => h (by simp [e])]
    · rfl
    · intro hp
      exact h ((List.isPrefixOf_iff_prefix.1 hp).subset hx)

theorem pair_some {sep s a b : Text} (h : pair sep s = some (a, b)) : s = a ++ sep ++ b := by
  unfold pair at h
  split at h
  · cases h
  · next a' b' hc =>
    split at h
    · cases h
    · cases h; exact cut_some hc

/-- The separators that match fields use. -/
theorem pair_slash {a b : Text} (ha : '/' ∉ a) (hb : '/' ∉ b) : pair ['/'] (a ++ '/' :: b) = some (a, b) := by
  have h : cut ['/'] (a ++ '/' :: b) = some (a, b) := by
    clear hb
    induction a with
    | nil => simp [cut]
    | cons c a ih =>
      have : c ≠ '/' := fun e => ha (by simp [e])
      simp [cut, Ne.symm this, ih fun e => ha (by simp [e])]
  simp [pair, h, cut_no (x := '/') (sep := ['/']) (by simp) hb]

theorem pair_amp {a b : Text} (ha : '&' ∉ a) (hb : '&' ∉ b) :
    pair ['&', '&', '&'] (a ++ '&' :: '&' :: '&' :: b) = some (a, b) := by
  have h : cut ['&', '&', '&'] (a ++ '&' :: '&' :: '&' :: b) = some (a, b) := by
    clear hb
    induction a with
    | nil => simp [cut]
    | cons c a ih =>
      have : c ≠ '&' := fun e => ha (by simp [e])
      simp [cut, Ne.symm this, ih fun e => ha (by simp [e])]
  simp [pair, h, cut_no (x := '&') (sep := ['&', '&', '&']) (by simp) hb]

theorem pair_arrow {a b : Text} (ha : '>' ∉ a) (hb : '>' ∉ b) : pair ['-', '>'] (a ++ '-' :: '>' :: b) = some (a, b) := by
  have h : cut ['-', '>'] (a ++ '-' :: '>' :: b) = some (a, b) := by
    clear hb
    induction a with
    | nil => simp [cut]
    | cons c a ih =>
      have ha' : '>' ∉ a := fun e => ha (by simp [e])
      rw [List.cons_append]
      simp only [cut]
      rw [if_neg, ih ha']
      · rfl
      · intro hp
        have h1 := List.isPrefixOf_iff_prefix.1 hp
        cases a with
        | nil => simp at h1
        | cons d a =>
          have : d ≠ '>' := fun e => ha' (by simp [e])
          simp [List.cons_prefix_cons, Ne.symm this] at h1
  simp [pair, h, cut_no (x := '>') (sep := ['-', '>']) (by simp) hb]

/-! ## Bytes -/

theorem bytesNat_snoc (l : Bytes) (b : UInt8) : bytesNat (l ++ [b]) = bytesNat l * 256 + b.toNat := by
  induction l with
  | nil => simp [bytesNat]
  | cons a l ih =>
    simp only [List.cons_append, bytesNat, ih, List.length_append, List.length_singleton, Nat.pow_succ]
    ring

/-- Numbers that are bytes. -/
def AreBytes (l : List Int) : Prop := ∀ x ∈ l, 0 ≤ x ∧ x < 256

/-- Least significant byte first. -/
def le : List Int → Nat
  | [] => 0
  | x :: xs => x.toNat + 256 * le xs

def toBytes (l : List Int) : Bytes := l.map fun x => UInt8.ofNat x.toNat

theorem byte_toNat {x : Int} (h : 0 ≤ x ∧ x < 256) : (UInt8.ofNat x.toNat).toNat = x.toNat := by
  rw [UInt8.toNat_ofNat']
  exact Nat.mod_eq_of_lt (by omega)

theorem bytesNat_le : ∀ {l : List Int}, AreBytes l → bytesNat (toBytes l.reverse) = le l
  | [], _ => rfl
  | x :: l, h => by
    have ih := bytesNat_le (l := l) fun y hy => h y (by simp [hy])
    rw [List.reverse_cons]
    unfold toBytes at ih ⊢
    rw [List.map_append, List.map_singleton, bytesNat_snoc, ih, byte_toNat (h x (by simp)), le]
    omega

theorem pack_ok {l : List Int} {bs : Bytes} (h : pack l = .ok bs) : AreBytes l ∧ bs = toBytes l := by
  unfold pack at h
  split at h
  · next hl => cases h; exact ⟨hl, rfl⟩
  · cases h

theorem pack_of {l : List Int} (h : AreBytes l) : pack l = .ok (toBytes l) := if_pos h

theorem le_append : ∀ (l m : List Int), le (l ++ m) = le l + 256 ^ l.length * le m
  | [], m => by simp [le]
  | x :: l, m => by simp only [List.cons_append, le, le_append l m, List.length_cons, Nat.pow_succ]; ring

theorem le_zeros (n : Nat) : le (List.replicate n 0) = 0 := by
  induction n with
  | zero => rfl
  | succ n ih => simp [List.replicate_succ, le, ih]

/-! ## Numbers to bytes -/

theorem lowLoop_spec (u : Nat) : ∀ (k i : Nat) (num : Int), i ≤ k →
    let r := lowLoop u k i num
    r.2 = num - u * r.1.length ∧ le r.1 = i ∧ AreBytes r.1 ∧ i < 256 ^ r.1.length ∧ (r.1.length = 0 ∨ 256 ^ (r.1.length - 1) ≤ i)
  | 0, i, num, h => by
    have : i = 0 := by omega
    subst this
    simp [lowLoop, le, AreBytes]
  | k + 1, i, num, h => by
    simp only [lowLoop]
    split
    · next hi =>
      obtain ⟨h1, h2, h3, h4, h5⟩ := lowLoop_spec u k (i / 256) (num - u) (by omega)
      dsimp only at h1 h2 h3 h4 h5 ⊢
      refine ⟨?_, ?_, ?_, ?_, .inr ?_⟩
      · rw [h1, List.length_cons]; push_cast; ring
      · rw [le, h2]; omega
      · intro x hx
        rcases List.mem_cons.1 hx with rfl | hx
        · omega
        · exact h3 x hx
      · rw [List.length_cons, Nat.pow_succ]
        omega
      · rw [List.length_cons, Nat.add_sub_cancel]
        rcases h5 with h5 | h5
        · rw [h5]; simp; omega
        · cases hl : (lowLoop u k (i / 256) (num - u)).1.length with
          | zero => simp; omega
          | succ m =>
            rw [hl, Nat.add_sub_cancel] at h5
            rw [Nat.pow_succ]
            omega
    · have : i = 0 := by omega
      subst this
      simp [le, AreBytes]

theorem padLoop_spec {u : Nat} (hu : 1 ≤ u) : ∀ (k : Nat) (num : Int), num.toNat ≤ k →
    padLoop u k num = List.replicate ((num.toNat + u - 1) / u) 0
  | 0, num, h => by
    have h0 : num.toNat = 0 := by omega
    rw [h0]
    have : (0 + u - 1) / u = 0 := Nat.div_eq_of_lt (by omega)
    rw [this]
    rfl
  | k + 1, num, h => by
    simp only [padLoop]
    split
    · next hn =>
      rw [padLoop_spec hu k (num - u) (by omega)]
      have : (num.toNat + u - 1) / u = ((num - u).toNat + u - 1) / u + 1 := by
        by_cases hc : num.toNat ≤ u
        · have h1 : (num - u).toNat = 0 := by omega
          rw [h1, Nat.div_eq_of_lt (show 0 + u - 1 < u by omega)]
          have h2 : num.toNat + u - 1 = (num.toNat - 1) + u := by omega
          rw [h2, Nat.add_div_right _ (by omega), Nat.div_eq_of_lt (by omega)]
        · have h1 : (num - u).toNat = num.toNat - u := by omega
          have h2 : num.toNat + u - 1 = (num.toNat - u + u - 1) + u := by omega
          rw [h1, h2, Nat.add_div_right _ (by omega)]
      rw [this, List.replicate_succ]
    · next hn =>
      have h0 : num.toNat = 0 := by omega
      rw [h0, Nat.div_eq_of_lt (by omega)]
      rfl

/-- What `int_to_bytes` returns. -/
theorem intToBytes_cases {u : Nat} (hu : 1 ≤ u) (i : Int) (num : Nat) :
    (intToBytes u i num = .err ∧ ∃ L, num < u * L ∧ 256 ^ (L - 1) ≤ i.toNat ∧ L ≠ 0) ∨
    ∃ l L, intToBytes u i num = .ok l ∧ AreBytes l ∧ bytesNat (toBytes l) = i.toNat ∧ u * L ≤ num ∧
      i.toNat < 256 ^ L ∧ l.length = L + (num - u * L + u - 1) / u ∧ (L = 0 ∨ 256 ^ (L - 1) ≤ i.toNat) := by
  obtain ⟨h1, h2, h3, h4, h5⟩ := lowLoop_spec u i.toNat i.toNat num (Nat.le_refl _)
  unfold intToBytes
  dsimp only
  split
  · next hn =>
    refine .inl ⟨rfl, (lowLoop u i.toNat i.toNat num).1.length, ?_, ?_, ?_⟩
    · rw [h1] at hn
      have : (num : Int) < u * (lowLoop u i.toNat i.toNat num).1.length := by omega
      exact_mod_cast this
    · rcases h5 with h5 | h5
      · exfalso
        rw [h1, h5] at hn
        simp at hn
        omega
      · exact h5
    · intro h0
      rw [h1, h0] at hn
      simp at hn
      omega
  · next hn =>
    have hle : u * (lowLoop u i.toNat i.toNat num).1.length ≤ num := by
      have : (u * (lowLoop u i.toNat i.toNat num).1.length : Int) ≤ num := by rw [h1] at hn; omega
      exact_mod_cast this
    have ht : (lowLoop u i.toNat i.toNat num).2.toNat = num - u * (lowLoop u i.toNat i.toNat num).1.length := by
      rw [h1]
      have : (num : Int) - u * (lowLoop u i.toNat i.toNat num).1.length =
        ((num - u * (lowLoop u i.toNat i.toNat num).1.length : Nat) : Int) := by
        rw [Nat.cast_sub hle]; push_cast; rfl
      rw [this]
      rfl
    have hb : AreBytes ((lowLoop u i.toNat i.toNat num).1 ++
        List.replicate ((num - u * (lowLoop u i.toNat i.toNat num).1.length + u - 1) / u) 0) := by
      intro x hx
      rcases List.mem_append.1 hx with hx | hx
      · exact h3 x hx
      · rw [List.eq_of_mem_replicate hx]; decide
    rw [padLoop_spec hu _ _ (Nat.le_refl _), ht]
    refine .inr ⟨_, (lowLoop u i.toNat i.toNat num).1.length, rfl, ?_, ?_, hle, h4, ?_, h5⟩
    · intro x hx
      exact hb x (List.mem_reverse.1 hx)
    · rw [bytesNat_le hb, le_append, le_zeros, h2]
      simp
    · simp [Nat.add_comm]

/-- With whole bytes: numbers that fit. -/
theorem intToBytes_ok {i : Int} {num : Nat} {l : List Int} (h : intToBytes 1 i num = .ok l) :
    AreBytes l ∧ l.length = num ∧ bytesNat (toBytes l) = i.toNat := by
  rcases intToBytes_cases (u := 1) (by omega) i num with ⟨e, -⟩ | ⟨l', L, e, h1, h2, h3, h4, h5, -⟩
  · rw [e] at h; cases h
  · rw [e] at h
    cases h
    refine ⟨h1, ?_, h2⟩
    rw [h5]
    simp
    omega

theorem intToBytes_fits {i : Int} {num : Nat} (h : i.toNat < 256 ^ num) :
    ∃ l, intToBytes 1 i num = .ok l := by
  rcases intToBytes_cases (u := 1) (by omega) i num with ⟨_, L, h1, h2, h3⟩ | ⟨l', L, e, -⟩
  · exfalso
    have : 256 ^ num ≤ 256 ^ (L - 1) := Nat.pow_le_pow_right (by omega) (by omega)
    omega
  · exact ⟨l', e⟩

theorem intToBytes_large {i : Int} {num : Nat} (h : 256 ^ num ≤ i.toNat) : intToBytes 1 i num = .err := by
  rcases intToBytes_cases (u := 1) (by omega) i num with ⟨e, -⟩ | ⟨l', L, e, h1, h2, h3, h4, -⟩
  · exact e
  · exfalso
    have : 256 ^ L ≤ 256 ^ num := Nat.pow_le_pow_right (by omega) (by omega)
    omega

theorem toBytes_length (l : List Int) : (toBytes l).length = l.length := by simp [toBytes]

/-! ## Addresses -/

theorem mapM_some {α β : Type} {f : α → Option β} : ∀ {l : List α} {r : List β},
    l.mapM f = some r ↔ List.Forall₂ (fun a b => f a = some b) l r
  | [], r => by
    simp only [List.mapM_nil, Option.pure_def, Option.some.injEq]
    constructor
    · rintro rfl; exact .nil
    · intro h; cases h; rfl
  | a :: l, r => by
    simp only [List.mapM_cons, Option.pure_def, Option.bind_eq_bind, Option.bind_eq_some_iff, Option.some.injEq]
    constructor
    · rintro ⟨b, hb, bs, hbs, rfl⟩
      exact .cons hb (mapM_some.1 hbs)
    · intro h
      cases h with
      | cons h1 h2 => exact ⟨_, h1, _, mapM_some.2 h2, rfl⟩

theorem fromBytes_acc : ∀ (ns : List Nat) (a : Nat), (∀ n ∈ ns, n < 256) →
    ns.foldl (fun a b => 256 * a + b) a = a * 256 ^ ns.length + bytesNat (ns.map UInt8.ofNat)
  | [], a, _ => by simp [bytesNat]
  | n :: ns, a, h => by
    have hn : (UInt8.ofNat n).toNat = n := by
      rw [UInt8.toNat_ofNat']; exact Nat.mod_eq_of_lt (h n (by simp))
    rw [List.foldl_cons, fromBytes_acc ns _ fun m hm => h m (by simp [hm]), List.map_cons, bytesNat, hn, List.length_map,
      List.length_cons, Nat.pow_succ]
    ring

theorem fromBytes_eq {ns : List Nat} (h : ∀ n ∈ ns, n < 256) : fromBytes ns = bytesNat (ns.map UInt8.ofNat) := by
  unfold fromBytes
  rw [fromBytes_acc ns 0 h]
  simp

/-- Parts of an address, read. -/
theorem parts_to {P : Text → Int → Prop} : ∀ {ts : List Text} {l : List Int}, List.Forall₂ P ts l → AreBytes l →
    ∃ ns : List Nat, List.Forall₂ (fun t (n : Nat) => P t n ∧ n < 256) ts ns ∧ toBytes l = ns.map UInt8.ofNat ∧
      ∀ n ∈ ns, n < 256
  | _, _, .nil, _ => ⟨[], .nil, rfl, by simp⟩
  | _, _, .cons (a := t) (b := x) h hs, hb => by
    obtain ⟨ns, h1, h2, h3⟩ := parts_to hs fun y hy => hb y (by simp [hy])
    have hx := hb x (by simp)
    refine ⟨x.toNat :: ns, .cons ⟨?_, by omega⟩ h1, ?_, ?_⟩
    · rw [Int.toNat_of_nonneg hx.1]; exact h
    · simp only [toBytes, List.map_cons] at h2 ⊢
      rw [h2]
    · intro n hn
      rcases List.mem_cons.1 hn with rfl | hn
      · omega
      · exact h3 n hn

theorem parts_of {P : Text → Int → Prop} : ∀ {ts : List Text} {ns : List Nat},
    List.Forall₂ (fun t (n : Nat) => P t n ∧ n < 256) ts ns →
    List.Forall₂ P ts (ns.map fun (n : Nat) => (n : Int)) ∧ AreBytes (ns.map fun (n : Nat) => (n : Int)) ∧ (∀ n ∈ ns, n < 256) ∧
      toBytes (ns.map fun (n : Nat) => (n : Int)) = ns.map UInt8.ofNat
  | _, _, .nil => ⟨.nil, by simp [AreBytes], by simp, rfl⟩
  | _, _, .cons (a := t) (b := n) h hs => by
    obtain ⟨h1, h2, h3, h4⟩ := parts_of hs
    refine ⟨.cons h.1 h1, ?_, ?_, ?_⟩
    · intro x hx
      rcases List.mem_cons.1 hx with rfl | hx
      · have := h.2; dsimp only; omega
      · exact h2 x hx
    · intro m hm
      rcases List.mem_cons.1 hm with rfl | hm
      · exact h.2
      · exact h3 m hm
    · simp only [toBytes, List.map_cons, List.map_map] at h4 ⊢
      rw [h4]
      simp

theorem forall2_imp {α β : Type} {R S : α → β → Prop} (h : ∀ a b, R a b → S a b) {l : List α} {r : List β}
    (hr : List.Forall₂ R l r) : List.Forall₂ S l r := by
  induction hr with
  | nil => exact .nil
  | cons h1 _ ih => exact .cons (h _ _ h1) ih

theorem forall2_length {α β : Type} {R : α → β → Prop} {l : List α} {r : List β} (h : List.Forall₂ R l r) :
    l.length = r.length := by
  induction h with
  | nil => rfl
  | cons _ _ ih => simp [ih]

theorem forall2_left {α β : Type} {R : α → β → Prop} {P : α → Prop} (hp : ∀ a b, R a b → P a) {l : List α} {r : List β}
    (h : List.Forall₂ R l r) : ∀ a ∈ l, P a := by
  induction h with
  | nil => simp
  | cons h1 _ ih =>
    intro a ha
    rcases List.mem_cons.1 ha with rfl | ha
    · exact hp _ _ h1
    · exact ih a ha

/-- Characters that do not occur in numbers. -/
theorem num_no {x : Char} (h1 : ¬ Plain x) (h2 : x ≠ '+') (h3 : x ≠ '-') {t : Text} (h : ∀ c ∈ t, Plain c ∨ c = '+' ∨ c = '-') :
    x ∉ t := by
  intro hx
  rcases h x hx with h | h | h
  · exact h1 h
  · exact h2 h
  · exact h3 h

theorem lit_no {x : Char} (h1 : ¬ Plain x) (h2 : x ≠ '+') (h3 : x ≠ '-') {t : Text} {v : Int} (h : Signed Literal t v) : x ∉ t :=
  num_no h1 h2 h3 (signed_chars (fun _ _ => literal_plain) h).2

theorem dec_no {x : Char} (h1 : ¬ Plain x) (h2 : x ≠ '+') (h3 : x ≠ '-') {t : Text} {v : Int} (h : Dec t v) : x ∉ t :=
  num_no h1 h2 h3 (dec_chars h)

theorem hex_no {x : Char} (h1 : ¬ Plain x) (h2 : x ≠ '+') (h3 : x ≠ '-') {t : Text} {v : Int} (h : Signed Hex t v) : x ∉ t :=
  num_no h1 h2 h3 (signed_chars (fun _ _ => hex_plain) h).2

/-! ## Values -/

/-- The number of a text that is not an address. -/
theorem value_num {v6 : V6} {s : Text} {w : Nat} (h1 : w = 32 → '.' ∉ s) (h2 : w = 48 ∨ w = 128 → ':' ∉ s) :
    value v6 s w = ((Out.of .err (int0 s)).bind fun i => intToBytes 1 i ((w + 7) / 8)).bind pack := by
  unfold value parseParam
  by_cases a : w = 32
  · simp [a, ipv4, h1 a]
  · by_cases b : w = 48
    · simp [b, mac, h2 (.inl b)]
    · by_cases c : w = 128
      · simp [c, ipv6, h2 (.inr c)]
      · simp [a, b, c]

/-- What is sent is what the text says, unless that is negative. -/
theorem value_sound {v6 : V6} (hv : V6.Proper v6) {s : Text} {w : Nat} {bs : Bytes} (h : value v6 s w = .ok bs) :
    ∃ v, Value v6 w s v ∧ (0 ≤ v → Holds w v bs) := by
  by_cases h4 : w = 32 ∧ '.' ∈ s
  · obtain ⟨rfl, hd⟩ := h4
    simp only [value, parseParam, ↓reduceIte, ipv4, hd, not_true_eq_false] at h
    obtain ⟨l, hl, hp⟩ := bind_ok h
    split at hl
    · cases hl
    · next hlen =>
      obtain ⟨hb, rfl⟩ := pack_ok hp
      have hm := mapM_some.1 (of_err_ok hl)
      obtain ⟨ns, n1, n2, n3⟩ := parts_to (forall2_imp (fun _ _ => int10_iff.1) hm) hb
      have hlen' : (split '.' s).length = 4 := by simpa using hlen
      have := Value.ipv4 (v6 := v6) hlen' n1
      rw [join_split] at this
      refine ⟨_, this, fun _ => ⟨?_, ?_⟩⟩
      · rw [n2, List.length_map, ← forall2_length n1, hlen']
      · rw [n2, fromBytes_eq n3]
  · by_cases h5 : w = 48 ∧ ':' ∈ s
    · obtain ⟨rfl, hd⟩ := h5
      simp only [value, parseParam, Nat.reduceEqDiff, ↓reduceIte, mac, hd, not_true_eq_false] at h
      obtain ⟨l, hl, hp⟩ := bind_ok h
      split at hl
      · cases hl
      · next hlen =>
        obtain ⟨hb, rfl⟩ := pack_ok hp
        have hm := mapM_some.1 (of_err_ok hl)
        obtain ⟨ns, n1, n2, n3⟩ := parts_to (forall2_imp (fun _ _ => int16_iff.1) hm) hb
        have hlen' : (split ':' s).length = 6 := by simpa using hlen
        have := Value.mac (v6 := v6) hlen' n1
        rw [join_split] at this
        refine ⟨_, this, fun _ => ⟨?_, ?_⟩⟩
        · rw [n2, List.length_map, ← forall2_length n1, hlen']
        · rw [n2, fromBytes_eq n3]
    · by_cases h6 : w = 128 ∧ ':' ∈ s
      · obtain ⟨rfl, hd⟩ := h6
        simp only [value, parseParam, Nat.reduceEqDiff, ↓reduceIte, ipv6, hd, not_true_eq_false] at h
        obtain ⟨l, hl, hp⟩ := bind_ok h
        have hl := of_err_ok hl
        obtain ⟨b, hb, rfl⟩ := Option.map_eq_some_iff.1 hl
        obtain ⟨-, rfl⟩ := pack_ok hp
        have e : toBytes (b.map fun b => (b.toNat : Int)) = b := by
          simp only [toBytes, List.map_map]
          conv => rhs; rw [← List.map_id b]
          apply List.map_congr_left
          intro x _
          simp
        refine ⟨_, .ipv6 hd hb, fun _ => ⟨?_, ?_⟩⟩
        · rw [e, (hv _ _ hb).1]
        · rw [e]
      · rw [value_num (fun a b => h4 ⟨a, b⟩) (fun a b => a.elim (fun a => h5 ⟨a, b⟩) fun a => h6 ⟨a, b⟩)] at h
        obtain ⟨l, hl, hp⟩ := bind_ok h
        obtain ⟨i, hi, hi'⟩ := bind_ok hl
        obtain ⟨hb, rfl⟩ := pack_ok hp
        obtain ⟨-, g1, g2⟩ := intToBytes_ok hi'
        refine ⟨i, .num (int0_iff.1 (of_err_ok hi)), fun h0 => ⟨by rw [toBytes_length, g1], ?_⟩⟩
        rw [g2]
        omega

theorem lit_value {v6 : V6} {w : Nat} {t : Text} {v : Int} (h : Signed Literal t v) :
    value v6 t w = (intToBytes 1 v ((w + 7) / 8)).bind pack := by
  rw [value_num (fun _ => lit_no (by decide) (by decide) (by decide) h) (fun _ => lit_no (by decide) (by decide) (by decide) h),
    of_some (int0_iff.2 h)]
  rfl

theorem pow_width (w : Nat) : 2 ^ w ≤ 256 ^ ((w + 7) / 8) := by
  rw [show 256 = 2 ^ 8 from rfl, ← Nat.pow_mul]
  exact Nat.pow_le_pow_right (by omega) (by omega)

/-- Values that fit are sent. -/
theorem value_complete {v6 : V6} (hv : V6.Proper v6) {s : Text} {w : Nat} {v : Int} (h : Value v6 w s v) (h0 : 0 ≤ v)
    (hl : v < 256 ^ ((w + 7) / 8)) : ∃ bs, value v6 s w = .ok bs ∧ Holds w v bs := by
  cases h with
  | num hn =>
    have hl' : v.toNat < 256 ^ ((w + 7) / 8) := by
      have : (v.toNat : Int) < ((256 ^ ((w + 7) / 8) : Nat) : Int) := by push_cast; omega
      exact_mod_cast this
    obtain ⟨l, hl⟩ := intToBytes_fits hl'
    obtain ⟨g1, g2, g3⟩ := intToBytes_ok hl
    refine ⟨toBytes l, ?_, by rw [toBytes_length, g2], by rw [g3]; omega⟩
    rw [lit_value hn, hl]
    exact pack_of g1
  | ipv4 hlen hp =>
    next ts ns =>
    obtain ⟨p1, p2, p3, p4⟩ := parts_of hp
    have hno : ∀ t ∈ ts, '.' ∉ t := forall2_left (fun a b h => dec_no (by decide) (by decide) (by decide) h) p1
    have hmem : '.' ∈ join '.' ts := by
      match ts, hlen with
      | a :: b :: ts, _ => exact join_mem
    have hs : split '.' (join '.' ts) = ts := split_join (by rintro rfl; simp at hlen) hno
    refine ⟨toBytes (ns.map fun (n : Nat) => (n : Int)), ?_, ?_, ?_⟩
    · simp only [value, parseParam, ↓reduceIte, ipv4, hmem, not_true_eq_false, hs, hlen, ne_eq,
        mapM_some.2 (forall2_imp (R := Dec) (S := fun t v => int10 t = some v) (fun _ _ h => int10_iff.2 h) p1), Out.of]
      exact pack_of p2
    · rw [p4, List.length_map, ← forall2_length hp, hlen]
    · rw [p4, fromBytes_eq p3]
  | mac hlen hp =>
    next ts ns =>
    obtain ⟨p1, p2, p3, p4⟩ := parts_of hp
    have hno : ∀ t ∈ ts, ':' ∉ t := forall2_left (fun a b h => hex_no (by decide) (by decide) (by decide) h) p1
    have hmem : ':' ∈ join ':' ts := by
      match ts, hlen with
      | a :: b :: ts, _ => exact join_mem
    have hs : split ':' (join ':' ts) = ts := split_join (by rintro rfl; simp at hlen) hno
    refine ⟨toBytes (ns.map fun (n : Nat) => (n : Int)), ?_, ?_, ?_⟩
    · simp only [value, parseParam, Nat.reduceEqDiff, ↓reduceIte, mac, hmem, not_true_eq_false, hs, hlen, ne_eq,
        mapM_some.2 (forall2_imp (R := Signed Hex) (S := fun t v => int16 t = some v) (fun _ _ h => int16_iff.2 h) p1), Out.of]
      exact pack_of p2
    · rw [p4, List.length_map, ← forall2_length hp, hlen]
    · rw [p4, fromBytes_eq p3]
  | ipv6 hd hb =>
    next b =>
    have e : toBytes (b.map fun b => (b.toNat : Int)) = b := by
      simp only [toBytes, List.map_map]
      conv => rhs; rw [← List.map_id b]
      apply List.map_congr_left
      intro x _
      simp
    refine ⟨b, ?_, (hv _ _ hb).1, rfl⟩
    simp only [value, parseParam, Nat.reduceEqDiff, ↓reduceIte, ipv6, hd, not_true_eq_false, hb, Option.map_some, Out.of]
    have : pack (b.map fun b => (b.toNat : Int)) = .ok (toBytes (b.map fun b => (b.toNat : Int))) := by
      apply pack_of
      intro x hx
      obtain ⟨y, _, rfl⟩ := List.mem_map.1 hx
      have := y.toNat_lt
      omega
    rw [e] at this
    exact this

/-- A negative number is taken for 0. -/
theorem value_negative {v6 : V6} {s : Text} {w : Nat} {v : Int} (h : Signed Literal s v) (h0 : v < 0) :
    ∃ bs, value v6 s w = .ok bs ∧ Holds w 0 bs := by
  have hz : v.toNat = 0 := by omega
  obtain ⟨l, hl⟩ := intToBytes_fits (i := v) (num := (w + 7) / 8) (by rw [hz]; exact Nat.pow_pos (by omega))
  obtain ⟨g1, g2, g3⟩ := intToBytes_ok hl
  refine ⟨toBytes l, ?_, by rw [toBytes_length, g2], by rw [g3, hz]; rfl⟩
  rw [lit_value h, hl]
  exact pack_of g1

/-- Characters that do not occur in values. -/
theorem value_no {v6 : V6} (hv : V6.Proper v6) {w : Nat} {t : Text} {v : Int} (h : Value v6 w t v) :
    '/' ∉ t ∧ '&' ∉ t ∧ '>' ∉ t := by
  cases h with
  | num hn => exact ⟨lit_no (by decide) (by decide) (by decide) hn, lit_no (by decide) (by decide) (by decide) hn,
      lit_no (by decide) (by decide) (by decide) hn⟩
  | ipv4 hlen hp =>
    next ts ns =>
    have key : ∀ x : Char, ¬ Plain x → x ≠ '+' → x ≠ '-' → x ≠ '.' → x ∉ join '.' ts := by
      intro x h1 h2 h3 h4 hx
      rcases mem_join hx with h | ⟨t, ht, h⟩
      · exact h4 h
      · exact forall2_left (P := fun t => x ∉ t) (fun a b h => dec_no h1 h2 h3 h.1) hp t ht h
    exact ⟨key _ (by decide) (by decide) (by decide) (by decide), key _ (by decide) (by decide) (by decide) (by decide),
      key _ (by decide) (by decide) (by decide) (by decide)⟩
  | mac hlen hp =>
    next ts ns =>
    have key : ∀ x : Char, ¬ Plain x → x ≠ '+' → x ≠ '-' → x ≠ ':' → x ∉ join ':' ts := by
      intro x h1 h2 h3 h4 hx
      rcases mem_join hx with h | ⟨t, ht, h⟩
      · exact h4 h
      · exact forall2_left (P := fun t => x ∉ t) (fun a b h => hex_no h1 h2 h3 h.1) hp t ht h
    exact ⟨key _ (by decide) (by decide) (by decide) (by decide), key _ (by decide) (by decide) (by decide) (by decide),
      key _ (by decide) (by decide) (by decide) (by decide)⟩
  | ipv6 _ hb => exact (hv _ _ hb).2

end Bm.Cli
