import Verif.Model.LookupIface
import Verif.Lemmas.EntryList
import Verif.Props.LpmTrie

/-! Every lookup structure implements its specification: a `Laws` bundle per structure. -/

namespace Bm
open Spec

/-- What the match unit needs from a lookup structure, relative to the installed entries `E`. -/
structure Laws {K : Type} (L : LookupStr K) (sp : MatchSpec K) where
  Rep : L.S → Nat → (Nat → Option K) → Prop
  ok : ∀ {s n E}, Rep s n E → ∀ i k, E i = some k → sp.okK k ∧ i < n
  uniq : ∀ {s n E}, Rep s n E → ∀ i j k k', E i = some k → E j = some k' → sp.same k k' → i = j
  refl : ∀ k, sp.same k k
  init : ∀ n, Rep (L.init n) n (fun _ => none)
  lookup : ∀ {s n E}, Rep s n E → ∀ q, sp.okQ q →
    ∃ r s', L.lookup s q = some (r, s') ∧ IsBest sp.prio (sp.m q) E r ∧ Rep s' n E
  retrieve : ∀ {s n E}, Rep s n E → ∀ k, sp.okK k →
    ∃ r, L.retrieve s k = some r ∧ L.existsKey s k = some r.isSome ∧
      (r = none → ∀ i k', E i = some k' → ¬ sp.same k' k) ∧
      (∀ i, r = some i → ∃ k', E i = some k' ∧ sp.same k' k)
  add : ∀ {s n E}, Rep s n E → ∀ k i, sp.okK k → i < n → E i = none → (∀ j < i, E j ≠ none) →
    (∀ j k', E j = some k' → ¬ sp.same k' k) →
    ∃ s', L.add s k i = some s' ∧ Rep s' n (fun j => if j = i then some k else E j)
  delete : ∀ {s n E}, Rep s n E → ∀ i k, E i = some k →
    ∃ s', L.delete s k = some s' ∧ Rep s' n (fun j => if j = i then none else E j)
  clear : ∀ {s n E}, Rep s n E → Rep (L.clear s) n (fun _ => none)

/-! ## The linked list structures -/

namespace EList
variable {K : Type}

/-- Full invariant of `EntryList`, including the cache. -/
structure Rep (sp : MatchSpec K) (l : EList K) (n : Nat) (E : Nat → Option K) : Prop where
  size : l.size = n
  linked : ∃ L, Linked sp.prio l E L
  ok : ∀ i k, E i = some k → sp.okK k
  uniq : ∀ i j k k', E i = some k → E j = some k' → sp.same k k' → i = j
  use : l.useCache = (l.enableCache && decide (l.count ≥ 16))
  unused : l.useCache = false → l.cache.entries = []
  cached : ∀ e ∈ l.cache.entries, IsBest sp.prio (sp.m e.1) E (some e.2)
  keys : (l.cache.entries.map Prod.fst).Nodup
  cap : l.cache.entries.length ≤ l.cache.cap
  capEq : l.cache.cap = 64

/-- Agreement of the code's comparisons with the specification. -/
structure CmpOk (sp : MatchSpec K) (prio : K → Int) (cmp : Bytes → K → Option Bool)
    (eqk : K → K → Bool) : Prop where
  prio_eq : sp.prio = prio
  cmp : ∀ q k, sp.okQ q → sp.okK k → ∃ b, cmp q k = some b ∧ (b = true ↔ sp.m q k)
  same : ∀ a b, sp.same a b ↔ prio a = prio b ∧ eqk a b = true

theorem Rep.init (sp : MatchSpec K) (n : Nat) (ec : Bool) :
    Rep sp ({ size := n, enableCache := ec } : EList K) n (fun _ => none) := by
  refine ⟨rfl, ⟨[], ?_⟩, by simp, by simp, by simp, by simp, by simp, by simp, by simp, rfl⟩
  exact ⟨by simp, by simp, by simp, ⟨none, rfl, rfl⟩, by simp, rfl⟩

theorem mem_of_lookup {β : Type} {k : Bytes} {v : β} {l : List (Bytes × β)}
    (h : l.lookup k = some v) : (k, v) ∈ l := by
  induction l with
  | nil => simp at h
  | cons e l ih =>
    obtain ⟨a, b⟩ := e
    by_cases hk : k = a
    · subst hk; simp at h; simp [h]
    · have : (k == a) = false := by simpa using hk
      rw [List.lookup_cons, this] at h
      simp [ih h]

theorem not_mem_of_lookup {β : Type} {k : Bytes} {l : List (Bytes × β)}
    (h : l.lookup k = none) : k ∉ l.map Prod.fst := by
  induction l with
  | nil => simp
  | cons e l ih =>
    obtain ⟨a, b⟩ := e
    by_cases hk : k = a
    · subst hk; simp at h
    · have : (k == a) = false := by simpa using hk
      rw [List.lookup_cons, this] at h
      simp only [List.map_cons, List.mem_cons, not_or]
      exact ⟨hk, ih h⟩

/-- The cache invariant only depends on the cache fields; a lookup changes nothing else. -/
theorem Rep.withCache {sp : MatchSpec K} {l : EList K} {n E} (h : Rep sp l n E) (c : TCache)
    (h1 : l.useCache = false → c.entries = [])
    (h2 : ∀ e ∈ c.entries, IsBest sp.prio (sp.m e.1) E (some e.2))
    (h3 : (c.entries.map Prod.fst).Nodup) (h4 : c.entries.length ≤ c.cap) (h5 : c.cap = 64)
    (u : Bool) (hu : u = l.useCache) :
    Rep sp { l with useCache := u, cache := c } n E := by
  subst hu
  obtain ⟨L, hl⟩ := h.linked
  exact ⟨h.size, ⟨L, hl.sorted, hl.mem, hl.lt, hl.seg, hl.key, hl.count⟩, h.ok, h.uniq, h.use, h1, h2,
    h3, h4, h5⟩

theorem Rep.lookup {sp : MatchSpec K} {prio cmp eqk} (hc : CmpOk sp prio cmp eqk) {l : EList K}
    {n E} (h : Rep sp l n E) (q : Bytes) (hq : sp.okQ q) :
    ∃ r l', l.lookup cmp q = some (r, l') ∧ IsBest sp.prio (sp.m q) E r ∧ Rep sp l' n E := by
  classical
  obtain ⟨L, hl⟩ := h.linked
  obtain ⟨r, e, hr⟩ := hl.lookupLoop (cmp := cmp) (kd := q) (m := sp.m q) (by
    intro i k hk
    obtain ⟨b, e1, e2⟩ := hc.cmp q k hq (h.ok i k hk)
    rw [e1]
    congr 1
    cases b with
    | true => exact (decide_eq_true (e2.1 rfl)).symm
    | false => exact (decide_eq_false (fun hm => by simpa using e2.2 hm)).symm)
  have hext : (l.cache : TCache) = { cap := l.cache.cap, entries := l.cache.entries } := rfl
  have hself : ∀ u, u = l.useCache → Rep sp { l with useCache := u, cache := l.cache } n E := by
    rintro u rfl; exact h
  unfold EList.lookup
  by_cases hu : l.useCache = true
  · simp only [hu, if_true]
    cases hlk : l.cache.entries.lookup q with
    | some hd =>
      have hmem := mem_of_lookup hlk
      have hbest := h.cached _ hmem
      simp only [TCache.lookup, hlk]
      refine ⟨some hd, _, rfl, hbest, ?_⟩
      have hsub : (l.cache.entries.filter (fun e => e.1 != q)).Sublist l.cache.entries :=
        List.filter_sublist
      refine h.withCache _ (fun hf => by rw [hu] at hf; cases hf) ?_ ?_ ?_ (by exact h.capEq) _ hu.symm
      · intro e he
        rcases List.mem_cons.1 he with rfl | he
        · exact hbest
        · exact h.cached e (hsub.subset he)
      · simp only [List.map_cons, List.nodup_cons]
        refine ⟨?_, h.keys.sublist (hsub.map _)⟩
        simp
      · have : (l.cache.entries.filter (fun e => e.1 != q)).length < l.cache.entries.length := by
          apply List.length_filter_lt_length_iff_exists.2
          exact ⟨_, hmem, by simp⟩
        have := h.cap
        simp only [List.length_cons]
        omega
    | none =>
      simp only [TCache.lookup, hlk, e, Option.bind_eq_bind, Option.bind_some]
      cases r with
      | none => exact ⟨none, _, rfl, hr, hself _ hu.symm⟩
      | some hd =>
        have hnm := not_mem_of_lookup hlk
        have hcap := h.cap
        have hpos := h.capEq
        simp only [TCache.add, hlk]
        by_cases hfull : l.cache.entries.length = l.cache.cap
        · have hne : l.cache.entries ≠ [] := by
            intro e0; rw [e0] at hfull; simp at hfull; omega
          simp only [hfull, if_true, hne, if_false, Option.bind_some]
          refine ⟨some hd, _, rfl, hr, ?_⟩
          have hsub : (l.cache.entries.dropLast).Sublist l.cache.entries :=
            List.dropLast_sublist _
          refine h.withCache _ (fun hf => by rw [hu] at hf; cases hf) ?_ ?_ ?_ (by exact hpos) _ hu.symm
          · intro x hx
            rcases List.mem_cons.1 hx with rfl | hx
            · exact hr
            · exact h.cached x (hsub.subset hx)
          · simp only [List.map_cons, List.nodup_cons]
            refine ⟨fun hm => hnm ((hsub.map _).subset hm), h.keys.sublist (hsub.map _)⟩
          · simp only [List.length_cons, List.length_dropLast]; omega
        · simp only [hfull, if_false, Option.bind_some]
          refine ⟨some hd, _, rfl, hr, ?_⟩
          refine h.withCache _ (fun hf => by rw [hu] at hf; cases hf) ?_ ?_ ?_ (by exact hpos) _ hu.symm
          · intro x hx
            rcases List.mem_cons.1 hx with rfl | hx
            · exact hr
            · exact h.cached x hx
          · simp only [List.map_cons, List.nodup_cons]
            exact ⟨hnm, h.keys⟩
          · simp only [List.length_cons]; omega
  · simp only [hu, Bool.false_eq_true, if_false, e, Option.bind_eq_bind, Option.bind_some]
    cases r with
    | none => exact ⟨none, _, rfl, hr, hself _ (by simpa using hu)⟩
    | some hd => exact ⟨some hd, _, rfl, hr, hself _ (by simpa using hu)⟩

theorem Rep.findEntry {sp : MatchSpec K} {prio cmp eqk} (hc : CmpOk sp prio cmp eqk)
    {l : EList K} {n E} (h : Rep sp l n E) (key : K) :
    ∃ r, l.findEntry prio eqk key = some r ∧
      (r = none → ∀ i k', E i = some k' → ¬ sp.same k' key) ∧
      (∀ i, r = some i → ∃ k', E i = some k' ∧ sp.same k' key) := by
  obtain ⟨L, hl⟩ := h.linked
  obtain ⟨r, e, hr⟩ := hl.findEntry eqk key
  rw [hc.prio_eq] at e hr
  refine ⟨r, e, ?_, ?_⟩
  · rintro rfl i k' hk'
    rw [hc.same]; exact hr i k' hk'
  · rintro i rfl
    obtain ⟨k', a, b⟩ := hr
    exact ⟨k', a, (hc.same _ _).2 b⟩

/-- Rebuilding the invariant after an update. -/
theorem Rep.refresh {sp : MatchSpec K} {l l' : EList K} {n E E'} (h : Rep sp l n E)
    (hs : l'.size = l.size) (hcu : l'.useCache = l.useCache)
    (hca : l'.cache = l.cache) (hl : ∃ L, Linked sp.prio l' E' L)
    (hok : ∀ i k, E' i = some k → sp.okK k)
    (huniq : ∀ i j k k', E' i = some k → E' j = some k' → sp.same k k' → i = j) :
    Rep sp l'.refreshCache n E' := by
  obtain ⟨L, hl⟩ := hl
  have hempty : l'.refreshCache.cache.entries = [] := by
    simp only [refreshCache, hcu, hca]
    by_cases hu : l.useCache = true
    · simp [hu, TCache.invalidateAll]
    · simp only [hu, Bool.false_eq_true, if_false]
      exact h.unused (by simpa using hu)
  have hcap : l'.refreshCache.cache.cap = l.cache.cap := by
    simp only [refreshCache, hca]
    split <;> rfl
  refine ⟨hs.trans h.size, ⟨L, hl.sorted, hl.mem, hl.lt, hl.seg, hl.key, hl.count⟩, hok, huniq, rfl,
    fun _ => hempty, ?_, ?_, ?_, ?_⟩
  · rw [hempty]; simp
  · rw [hempty]; simp
  · rw [hempty]; simp
  · rw [hcap]; exact h.capEq

theorem Rep.add {sp : MatchSpec K} {prio cmp eqk} (hc : CmpOk sp prio cmp eqk)
    {l : EList K} {n E} (h : Rep sp l n E) (k : K) (i : Nat) (hk : sp.okK k) (hi : i < n)
    (hfree : E i = none) (hleast : ∀ j < i, E j ≠ none)
    (hnew : ∀ j k', E j = some k' → ¬ sp.same k' k) (hsymm : ∀ a b, sp.same a b → sp.same b a) :
    ∃ l', l.add prio k i = some l' ∧ Rep sp l' n (fun j => if j = i then some k else E j) := by
  obtain ⟨L, hl⟩ := h.linked
  obtain ⟨l', L', e, hl', h1, _, h3, h4⟩ := hl.add k i (by rw [h.size]; exact hi) hfree
    (fun j hj => Option.isSome_iff_ne_none.2 (hleast j hj))
  rw [hc.prio_eq] at e
  refine ⟨_, e, h.refresh h1 h3 h4 ⟨L', hl'⟩ ?_ ?_⟩
  · intro j k' hk'
    by_cases hj : j = i
    · simp [hj] at hk'; rw [← hk']; exact hk
    · simp [hj] at hk'; exact h.ok j k' hk'
  · intro a b ka kb hka hkb hsm
    by_cases ha : a = i <;> by_cases hb : b = i
    · rw [ha, hb]
    · simp [ha] at hka; simp [hb] at hkb
      rw [← hka] at hsm
      exact absurd (hsymm _ _ hsm) (hnew b kb hkb)
    · simp [ha] at hka; simp [hb] at hkb
      rw [← hkb] at hsm
      exact absurd hsm (hnew a ka hka)
    · simp [ha] at hka; simp [hb] at hkb
      exact h.uniq a b ka kb hka hkb hsm

theorem Rep.delete {sp : MatchSpec K} {prio cmp eqk} (hc : CmpOk sp prio cmp eqk)
    {l : EList K} {n E} (h : Rep sp l n E) (i : Nat) (k : K) (hk : E i = some k)
    (hrefl : ∀ a, sp.same a a) :
    ∃ l', l.delete prio eqk k = some l' ∧ Rep sp l' n (fun j => if j = i then none else E j) := by
  obtain ⟨r, e, h1, h2⟩ := h.findEntry hc k
  cases r with
  | none => exact absurd (hrefl k) (h1 rfl i k hk)
  | some j =>
    obtain ⟨k', hk', hsm⟩ := h2 j rfl
    have hji : j = i := h.uniq j i k' k hk' hk hsm
    subst hji
    obtain ⟨L, hl⟩ := h.linked
    obtain ⟨L', hl', u1, _, u3, u4⟩ := hl.unlink j (by rw [hk]; rfl)
    refine ⟨(l.unlink j).refreshCache, ?_, h.refresh u1 u3 u4 ⟨L', hl'⟩ ?_ ?_⟩
    · simp only [EList.delete, e, Option.bind_eq_bind, Option.bind_some]; rfl
    · intro a ka hka
      by_cases ha : a = j
      · simp [ha] at hka
      · simp [ha] at hka; exact h.ok a ka hka
    · intro a b ka kb hka hkb
      by_cases ha : a = j
      · simp [ha] at hka
      · by_cases hb : b = j
        · simp [hb] at hkb
        · simp [ha] at hka; simp [hb] at hkb
          exact h.uniq a b ka kb hka hkb

theorem Rep.clear {sp : MatchSpec K} {l : EList K} {n E} (h : Rep sp l n E) :
    Rep sp l.clear n (fun _ => none) := by
  refine ⟨h.size, ⟨[], by simp, by simp, by simp, ⟨none, rfl, rfl⟩, by simp, rfl⟩, by simp, by simp,
    rfl, ?_, ?_, ?_, ?_, h.capEq⟩ <;> simp [EList.clear, TCache.invalidateAll]

end EList

/-! ## Comparisons -/

theorem maskedEqFrom_spec (kd data mask : Bytes) (n : Nat) : ∀ (i : Nat),
    i + n = kd.length → kd.length = data.length → kd.length = mask.length →
    ∃ b, maskedEqFrom kd data mask i n = some b ∧
      (b = true ↔ List.zipWith (· &&& ·) (kd.drop i) (mask.drop i) = data.drop i) := by
  induction n with
  | zero =>
    intro i h1 h2 h3
    refine ⟨true, rfl, ?_⟩
    rw [List.drop_of_length_le (by omega), List.drop_of_length_le (by omega),
      List.drop_of_length_le (by omega)]
    simp
  | succ n ih =>
    intro i h1 h2 h3
    have e1 : kd[i]? = some (kd[i]'(by omega)) := List.getElem?_eq_getElem _
    have e2 : data[i]? = some (data[i]'(by omega)) := List.getElem?_eq_getElem _
    have e3 : mask[i]? = some (mask[i]'(by omega)) := List.getElem?_eq_getElem _
    simp only [maskedEqFrom, e1, e2, e3, Option.bind_eq_bind, Option.bind_some]
    rw [List.drop_eq_getElem_cons (show i < kd.length by omega),
      List.drop_eq_getElem_cons (show i < mask.length by omega),
      List.drop_eq_getElem_cons (show i < data.length by omega)]
    simp only [List.zipWith_cons_cons, List.cons.injEq]
    split
    · rename_i hne
      exact ⟨false, rfl, by simp; intro h; exact absurd h.symm hne⟩
    · rename_i hne
      have hq : data[i] = kd[i] &&& mask[i] := not_not.1 hne
      obtain ⟨b, hb, hbb⟩ := ih (i + 1) (by omega) h2 h3
      exact ⟨b, hb, by rw [hbb]; simp [hq]⟩

theorem ternCmpOk (n : Nat) :
    EList.CmpOk (ternSpec n TernKey.data TernKey.mask TernKey.priority) TernKey.priority
      (ternCmp n) ternEq := by
  refine ⟨rfl, ?_, ?_⟩
  · intro q k hq hk
    have := maskedEqFrom_spec q k.data k.mask n 0 (by have := hq; simp [ternSpec] at this; omega)
      (by have := hq; have := hk.1; simp [ternSpec] at *; omega)
      (by have := hq; have := hk.2; simp [ternSpec] at *; omega)
    simp only [List.drop_zero] at this
    exact this
  · intro a b
    simp only [ternSpec, ternEq, Bool.and_eq_true, decide_eq_true_eq]
    tauto

theorem bytesNat_lt (l : List UInt8) : bytesNat l < 256 ^ l.length := by
  induction l with
  | nil => simp [bytesNat]
  | cons b l ih =>
    simp only [bytesNat, List.length_cons, pow_succ]
    have := b.toNat_lt
    nlinarith

theorem memcmpFrom_spec (a b : Bytes) (n : Nat) : ∀ (i : Nat), i + n ≤ a.length →
    i + n ≤ b.length →
    memcmpFrom a b i n =
      some (compare (bytesNat ((a.drop i).take n)) (bytesNat ((b.drop i).take n))) := by
  induction n with
  | zero => intro i h1 h2; simp [memcmpFrom, bytesNat]
  | succ n ih =>
    intro i h1 h2
    have e1 : a[i]? = some (a[i]'(by omega)) := List.getElem?_eq_getElem _
    have e2 : b[i]? = some (b[i]'(by omega)) := List.getElem?_eq_getElem _
    simp only [memcmpFrom, e1, e2, Option.bind_eq_bind, Option.bind_some]
    rw [List.drop_eq_getElem_cons (show i < a.length by omega),
      List.drop_eq_getElem_cons (show i < b.length by omega)]
    simp only [List.take_succ_cons, bytesNat]
    have l1 : ((a.drop (i + 1)).take n).length = n := by simp; omega
    have l2 : ((b.drop (i + 1)).take n).length = n := by simp; omega
    have b1 := bytesNat_lt ((a.drop (i + 1)).take n)
    have b2 := bytesNat_lt ((b.drop (i + 1)).take n)
    rw [l1] at b1 ⊢
    rw [l2] at b2 ⊢
    have hlt : ∀ x y : UInt8, x < y ↔ x.toNat < y.toNat := fun x y => UInt8.lt_iff_toNat_lt
    split
    · rename_i h
      rw [hlt] at h
      refine congrArg some (Nat.compare_eq_lt.2 ?_).symm
      nlinarith
    · rename_i h
      split
      · rename_i h'
        rw [hlt] at h'
        refine congrArg some (Nat.compare_eq_gt.2 ?_).symm
        nlinarith
      · rename_i h'
        rw [hlt] at h h'
        have heq : a[i].toNat = b[i].toNat := by omega
        rw [ih (i + 1) (by omega) (by omega), heq]
        congr 1
        rcases lt_trichotomy (bytesNat ((a.drop (i + 1)).take n))
          (bytesNat ((b.drop (i + 1)).take n)) with hh | hh | hh
        · rw [Nat.compare_eq_lt.2 hh]; exact (Nat.compare_eq_lt.2 (by omega)).symm
        · rw [hh, Nat.compare_eq_eq.2 rfl, Nat.compare_eq_eq.2 rfl]
        · rw [Nat.compare_eq_gt.2 hh]; exact (Nat.compare_eq_gt.2 (by omega)).symm

theorem rangesFrom_spec (kd : Bytes) (k : RangeKey) (n : Nat) (ws : List Nat) : ∀ (off : Nat),
    off + ws.sum ≤ n → kd.length = n → k.data.length = n → k.mask.length = n →
    ∃ b, (do
      match ← rangesFrom kd k off ws with
      | none => return false
      | some o => maskedEqFrom kd k.data k.mask o (n - o)) = some b ∧
      (b = true ↔ RangeMatches ws (kd.drop off) (k.data.drop off) (k.mask.drop off)) := by
  induction ws with
  | nil =>
    intro off h1 h2 h3 h4
    simp only [rangesFrom, Option.bind_eq_bind, Option.bind_some, RangeMatches]
    exact maskedEqFrom_spec kd k.data k.mask (n - off) off (by simp at h1; omega) (by omega) (by omega)
  | cons w ws ih =>
    intro off h1 h2 h3 h4
    simp only [List.sum_cons] at h1
    simp only [rangesFrom, RangeMatches]
    rw [memcmpFrom_spec kd k.data w off (by omega) (by omega),
      memcmpFrom_spec kd k.mask w off (by omega) (by omega)]
    simp only [Option.bind_eq_bind, Option.bind_some, List.drop_drop, Nat.compare_eq_lt,
      Nat.compare_eq_gt]
    by_cases c1 : bytesNat ((kd.drop off).take w) < bytesNat ((k.data.drop off).take w)
    · refine ⟨false, ?_, ?_⟩
      · rw [if_pos c1]; rfl
      · simp; intro h; omega
    · rw [if_neg c1]
      simp only [Option.pure_def, Option.bind_some]
      by_cases c2 : bytesNat ((k.mask.drop off).take w) < bytesNat ((kd.drop off).take w)
      · refine ⟨false, ?_, ?_⟩
        · rw [if_pos c2]; rfl
        · simp; intro _ h; omega
      · rw [if_neg c2]
        obtain ⟨b, hb, hbb⟩ := ih (off + w) (by omega) h2 h3 h4
        refine ⟨b, ?_, ?_⟩
        · simpa using hb
        · rw [hbb]
          constructor
          · intro h; exact ⟨by omega, by omega, h⟩
          · intro h; exact h.2.2

theorem rangeCmpOk (n : Nat) :
    EList.CmpOk (rangeSpec n RangeKey.data RangeKey.mask RangeKey.rangeWidths RangeKey.priority)
      RangeKey.priority (rangeCmp n) rangeEq := by
  refine ⟨rfl, ?_, ?_⟩
  · intro q k hq hk
    have := rangesFrom_spec q k n k.rangeWidths 0 (by have := hk.2.2; simpa using this) hq hk.1 hk.2.1
    simp only [List.drop_zero] at this
    exact this
  · intro a b
    simp only [rangeSpec, rangeEq, Bool.and_eq_true, decide_eq_true_eq]
    tauto

/-! ## The bundles -/

theorem EList.Rep.lt {K : Type} {sp : MatchSpec K} {l : EList K} {n E} (h : EList.Rep sp l n E) :
    ∀ i k, E i = some k → sp.okK k ∧ i < n := by
  intro i k hk
  obtain ⟨L, hl⟩ := h.linked
  refine ⟨h.ok i k hk, ?_⟩
  rw [← h.size]
  exact hl.lt i ((hl.mem i).2 (by rw [hk]; rfl))

/-- `TernaryMap`. -/
def ternLaws (n : Nat) (ec : Bool) :
    Laws (ternStr n ec) (ternSpec n TernKey.data TernKey.mask TernKey.priority) where
  Rep := EList.Rep _
  ok := fun h => h.lt
  uniq := fun h => h.uniq
  refl := fun k => ⟨rfl, rfl, rfl⟩
  init := fun n => EList.Rep.init _ n ec
  lookup := fun h q hq => h.lookup (ternCmpOk n) q hq
  retrieve := by
    intro s m E h k hk
    obtain ⟨r, e, h1, h2⟩ := h.findEntry (ternCmpOk n) k
    exact ⟨r, e, by simp [ternStr, EList.existsKey, e], h1, h2⟩
  add := by
    intro s m E h k i hk hi hf hl hn
    exact h.add (ternCmpOk n) k i hk hi hf hl hn
      (by intro a b hab; exact ⟨hab.1.symm, hab.2.1.symm, hab.2.2.symm⟩)
  delete := by
    intro s m E h i k hk
    exact h.delete (ternCmpOk n) i k hk (fun a => ⟨rfl, rfl, rfl⟩)
  clear := fun h => h.clear

/-- `RangeMap`. -/
def rangeLaws (n : Nat) (ec : Bool) :
    Laws (rangeStr n ec)
      (rangeSpec n RangeKey.data RangeKey.mask RangeKey.rangeWidths RangeKey.priority) where
  Rep := EList.Rep _
  ok := fun h => h.lt
  uniq := fun h => h.uniq
  refl := fun k => ⟨rfl, rfl, rfl, rfl⟩
  init := fun n => EList.Rep.init _ n ec
  lookup := fun h q hq => h.lookup (rangeCmpOk n) q hq
  retrieve := by
    intro s m E h k hk
    obtain ⟨r, e, h1, h2⟩ := h.findEntry (rangeCmpOk n) k
    exact ⟨r, e, by simp [rangeStr, EList.existsKey, e], h1, h2⟩
  add := by
    intro s m E h k i hk hi hf hl hn
    exact h.add (rangeCmpOk n) k i hk hi hf hl hn
      (by intro a b hab; exact ⟨hab.1.symm, hab.2.1.symm, hab.2.2.1.symm, hab.2.2.2.symm⟩)
  delete := by
    intro s m E h i k hk
    exact h.delete (rangeCmpOk n) i k hk (fun a => ⟨rfl, rfl, rfl, rfl⟩)
  clear := fun h => h.clear

theorem lookup_filter_ne {β : Type} (l : List (Bytes × β)) (k q : Bytes) :
    (l.filter (fun e => e.1 != k)).lookup q = if q = k then none else l.lookup q := by
  induction l with
  | nil => simp
  | cons e l ih =>
    obtain ⟨a, b⟩ := e
    by_cases ha : a = k
    · subst ha
      simp only [List.filter_cons, bne_self_eq_false, Bool.false_eq_true, if_false, ih]
      by_cases hq : q = a
      · simp [hq]
      · have : (q == a) = false := by simpa using hq
        simp [hq, List.lookup_cons, this]
    · have hb : (a != k) = true := by simpa using ha
      simp only [List.filter_cons, hb, if_true, List.lookup_cons, ih]
      by_cases hq : q = a
      · subst hq; simp [ha]
      · have : (q == a) = false := by simpa using hq
        simp [this]

/-- What `ExactMap` stores. -/
def ExactRep (nb : Nat) (s : ExactMap) (n : Nat) (E : Nat → Option Bytes) : Prop :=
  (∀ i k, E i = some k → k.length = nb ∧ i < n) ∧ ∀ k i, s.find k = some i ↔ E i = some k

theorem exact_add {nb n : Nat} {s : ExactMap} {E : Nat → Option Bytes} (h : ExactRep nb s n E) (k : Bytes) (i : Nat)
    (hk : k.length = nb) (hi : i < n) (hf : E i = none) (hnew : ∀ j k', E j = some k' → ¬ k' = k) :
    ∃ s', exactStr.add s k i = some s' ∧ ExactRep nb s' n (fun j => if j = i then some k else E j) := by
  obtain ⟨h0, h⟩ := h
  refine ⟨_, rfl, ?_, ?_⟩
  · intro j k' hk'
    by_cases hj : j = i
    · subst hj; simp only [if_true, Option.some.injEq] at hk'; subst hk'; exact ⟨hk, hi⟩
    · simp only [hj, if_false] at hk'; exact h0 j k' hk'
  · intro q j
    simp only [ExactMap.add, ExactMap.find, List.lookup_cons, lookup_filter_ne]
    by_cases hq : q = k
    · subst hq
      simp only [BEq.rfl, Option.some.injEq]
      by_cases hj : j = i
      · simp [hj]
      · simp only [hj, if_false]
        constructor
        · intro e; exact absurd e.symm hj
        · intro e; exact absurd rfl (hnew j q e)
    · have hb : (q == k) = false := by simpa using hq
      simp only [hb, hq, if_false]
      by_cases hj : j = i
      · subst hj
        simp only [if_true, Option.some.injEq]
        constructor
        · intro e
          have := (h q j).1 e
          rw [hf] at this; cases this
        · intro e; exact absurd e.symm hq
      · simp only [hj, if_false]; exact h q j

/-- `ExactMap`. -/
def exactLaws (nb : Nat) : Laws exactStr (exactSpec nb) where
  Rep := ExactRep nb
  ok := fun h => h.1
  uniq := by
    rintro s n E ⟨_, h⟩ i j k k' hi hj hs
    have hs : k = k' := hs
    subst hs
    have h1 := (h k i).2 hi
    have h2 := (h k j).2 hj
    rw [h1] at h2; exact Option.some.inj h2
  refl := fun k => rfl
  init := fun n => ⟨by simp, by simp [exactStr, ExactMap.find]⟩
  lookup := by
    rintro s n E ⟨h0, h⟩ q hq
    refine ⟨s.find q, s, rfl, ?_, h0, h⟩
    cases hf : s.find q with
    | none =>
      intro i k hk hm
      have hm : q = k := hm
      subst hm
      rw [(h q i).2 hk] at hf; cases hf
    | some i =>
      refine ⟨q, (h q i).1 hf, rfl, ?_⟩
      intro j k' hk' hm
      have hm : q = k' := hm
      subst hm
      have := (h q j).2 hk'
      rw [hf] at this; cases this
      right; exact ⟨rfl, le_refl _⟩
  retrieve := by
    rintro s n E ⟨h0, h⟩ k hk
    refine ⟨s.find k, rfl, rfl, ?_, ?_⟩
    · intro hn i k' hk' hs
      have hs : k' = k := hs
      subst hs
      rw [(h k' i).2 hk'] at hn; cases hn
    · intro i hi
      exact ⟨k, (h k i).1 hi, rfl⟩
  add := fun h k i hk hi hf _ hnew => exact_add h k i hk hi hf hnew
  delete := by
    rintro s n E ⟨h0, h⟩ i k hk
    refine ⟨_, rfl, ?_, ?_⟩
    · intro j k' hk'
      by_cases hj : j = i
      · simp [hj] at hk'
      · simp only [hj, if_false] at hk'; exact h0 j k' hk'
    · intro q j
      simp only [ExactMap.delete, ExactMap.find, lookup_filter_ne]
      by_cases hq : q = k
      · subst hq
        simp only [if_true]
        by_cases hj : j = i
        · simp [hj]
        · simp only [hj, if_false]
          constructor
          · intro e; cases e
          · intro e
            have h1 := (h q i).2 hk
            have h2 := (h q j).2 e
            rw [h1] at h2; cases h2; exact absurd rfl hj
      · simp only [hq, if_false]
        by_cases hj : j = i
        · subst hj
          simp only [if_true]
          constructor
          · intro e
            have := (h q j).1 e
            rw [hk] at this; cases this; exact absurd rfl hq
          · intro e; cases e
        · simp only [hj, if_false]; exact h q j
  clear := fun _ => ⟨by simp, by simp [exactStr, ExactMap.find]⟩

theorem LpmTrie.Rep.lookup {w : Nat} {t : LpmTrie Nat} {M} (h : t.Rep w M) (key : List UInt8)
    (hk : key.length = w) : ∃ r, t.lookup key = some r ∧ IsLpm M (bytesBits key) r := by
  have hw := h.wf
  rw [← hk] at hw
  obtain ⟨r, e2, hr⟩ := TNode.lookup_spec key t.root none hw (Or.inl rfl)
  refine ⟨r, ?_, ?_⟩
  · unfold LpmTrie.lookup
    rw [if_neg (by rw [h.width]; omega), h.width, ← hk, List.take_length, e2]
    simp
  · have : (fun b => t.root.sem b) = M := by
      funext b; exact h.sem b
    rwa [this] at hr

theorem LpmTrie.Rep.retrieve {w : Nat} {t : LpmTrie Nat} {M} (h : t.Rep w M) (q : List UInt8)
    (qlen : Nat) (hq : q.length = w) (hl : qlen ≤ 8 * w) :
    t.retrieveValue q qlen = some (M (prefixBits q qlen)) := by
  unfold LpmTrie.retrieveValue
  rw [TNode.retrieve_sem _ _ _ (by omega), h.sem]

/-- Correspondence between installed LPM entries and installed prefixes. -/
structure LpmRep (w : Nat) (t : LpmTrie Nat) (n : Nat) (E : Nat → Option LpmKey) : Prop where
  trie : ∃ M, t.Rep w M ∧
    ∀ bits i, M bits = some i ↔ ∃ k, E i = some k ∧ bits = prefixBits k.data k.prefixLength
  ok : ∀ i k, E i = some k → (k.data.length = w ∧ k.prefixLength ≤ 8 * w) ∧ i < n

theorem prefixBits_length {w : Nat} {k : LpmKey}
    (h : k.data.length = w ∧ k.prefixLength ≤ 8 * w) :
    (prefixBits k.data k.prefixLength).length = k.prefixLength := by
  simp only [prefixBits, List.length_take, bytesBits_length]
  omega

theorem lpm_same_iff {w : Nat} {a b : LpmKey} (ha : a.data.length = w ∧ a.prefixLength ≤ 8 * w)
    (hb : b.data.length = w ∧ b.prefixLength ≤ 8 * w) :
    (lpmSpec w LpmKey.data LpmKey.prefixLength).same a b ↔
      prefixBits a.data a.prefixLength = prefixBits b.data b.prefixLength := by
  simp only [lpmSpec]
  constructor
  · exact fun h => h.2
  · intro h
    refine ⟨?_, h⟩
    rw [← prefixBits_length ha, ← prefixBits_length hb, h]

theorem lpm_add {w n : Nat} {s : LpmTrie Nat} {E : Nat → Option LpmKey} (h : LpmRep w s n E) (k : LpmKey) (i : Nat)
    (hk : k.data.length = w ∧ k.prefixLength ≤ 8 * w) (hi : i < n) (hf : E i = none)
    (hnew : ∀ j k', E j = some k' → ¬ (lpmSpec w LpmKey.data LpmKey.prefixLength).same k' k) :
    ∃ s', (lpmStr w).add s k i = some s' ∧ LpmRep w s' n (fun j => if j = i then some k else E j) := by
  obtain ⟨M, hr, hM⟩ := h.trie
  obtain ⟨b, t', e, hr', _⟩ := hr.exec (.insert k.data k.prefixLength i) hk
  refine ⟨t', ?_, ⟨_, hr', ?_⟩, ?_⟩
  · simp only [LpmTrie.exec, Option.map_eq_some_iff] at e
    obtain ⟨t'', e', e2⟩ := e
    cases e2; exact e'
  · intro bits j
    simp only [LOp.apply]
    by_cases hb : bits = prefixBits k.data k.prefixLength
    · simp only [hb, if_true, Option.some.injEq]
      by_cases hj : j = i
      · subst hj
        simp
      · simp only [hj, if_false]
        constructor
        · intro e; exact absurd e.symm hj
        · rintro ⟨k', hk', hb'⟩
          exact absurd ((lpm_same_iff (h.ok j k' hk').1 hk).2 hb'.symm) (hnew j k' hk')
    · simp only [hb, if_false, hM]
      by_cases hj : j = i
      · subst hj
        simp only [if_true, hf, Option.some.injEq]
        constructor
        · rintro ⟨k', e, _⟩; cases e
        · rintro ⟨k', rfl, e⟩; exact absurd e hb
      · simp only [hj, if_false]
  · intro j k' hk'
    by_cases hj : j = i
    · subst hj; simp only [if_true, Option.some.injEq] at hk'; subst hk'; exact ⟨hk, hi⟩
    · simp only [hj, if_false] at hk'; exact h.ok j k' hk'

/-- `LPMTrieStructure`. -/
def lpmLaws (w : Nat) : Laws (lpmStr w) (lpmSpec w LpmKey.data LpmKey.prefixLength) where
  Rep := LpmRep w
  ok := fun h => h.ok
  uniq := by
    intro s n E h i j k k' hi hj hs
    obtain ⟨M, _, hM⟩ := h.trie
    have hb := hs.2
    have h1 := (hM _ i).2 ⟨k, hi, rfl⟩
    have h2 := (hM _ j).2 ⟨k', hj, rfl⟩
    have hb : prefixBits k.data k.prefixLength = prefixBits k'.data k'.prefixLength := hb
    rw [hb, h2] at h1
    exact (Option.some.inj h1).symm
  refl := fun k => ⟨rfl, rfl⟩
  init := fun n => ⟨⟨fun _ => none, LpmTrie.Rep.init w, by simp⟩, by simp⟩
  lookup := by
    intro s n E h q hq
    obtain ⟨M, hr, hM⟩ := h.trie
    obtain ⟨r, e, hl⟩ := hr.lookup q hq
    refine ⟨r, s, by simp [lpmStr, e], ?_, h⟩
    have hmatch : ∀ k : LpmKey, (k.data.length = w ∧ k.prefixLength ≤ 8 * w) →
        ((lpmSpec w LpmKey.data LpmKey.prefixLength).m q k ↔
          prefixBits k.data k.prefixLength <+: bytesBits q) := by
      intro k hk
      simp only [lpmSpec]
      constructor
      · intro hm
        show (bytesBits k.data).take k.prefixLength <+: _
        rw [hm]; exact List.take_prefix _ _
      · intro hp
        have := List.prefix_iff_eq_take.1 hp
        rw [prefixBits_length hk] at this
        exact this
    cases r with
    | none =>
      intro i k hk hm
      have := hl _ ((hmatch k (h.ok i k hk).1).1 hm)
      rw [(hM _ i).2 ⟨k, hk, rfl⟩] at this; cases this
    | some i =>
      obtain ⟨pre, hp, hMp, hmax⟩ := hl
      obtain ⟨k, hk, rfl⟩ := (hM pre i).1 hMp
      have hok := (h.ok i k hk).1
      refine ⟨k, hk, (hmatch k hok).2 hp, ?_⟩
      intro j k' hk' hm
      have hok' := (h.ok j k' hk').1
      have hp' := (hmatch k' hok').1 hm
      have hle : ¬ k.prefixLength < k'.prefixLength := by
        intro hlt
        have := hmax _ hp' (by rw [prefixBits_length hok, prefixBits_length hok']; exact hlt)
        rw [(hM _ j).2 ⟨k', hk', rfl⟩] at this; cases this
      show -(k.prefixLength : Int) < -(k'.prefixLength : Int) ∨
        (-(k.prefixLength : Int) = -(k'.prefixLength : Int) ∧ i ≤ j)
      rcases Nat.lt_or_ge k'.prefixLength k.prefixLength with hlt | hge
      · left; omega
      · right
        have hlen : k.prefixLength = k'.prefixLength := by omega
        refine ⟨by omega, ?_⟩
        have this : prefixBits k.data k.prefixLength = prefixBits k'.data k'.prefixLength := by
          have a := List.prefix_iff_eq_take.1 hp
          have b := List.prefix_iff_eq_take.1 hp'
          rw [prefixBits_length hok] at a
          rw [prefixBits_length hok'] at b
          rw [a, b, hlen]
        rw [this, (hM _ j).2 ⟨k', hk', rfl⟩] at hMp
        cases hMp; exact le_refl _
  retrieve := by
    intro s n E h k hk
    obtain ⟨M, hr, hM⟩ := h.trie
    have e := hr.retrieve k.data k.prefixLength hk.1 hk.2
    refine ⟨_, e, by simp [lpmStr, LpmTrie.hasPrefix, e], ?_, ?_⟩
    · intro hn i k' hk' hs
      rw [lpm_same_iff (h.ok i k' hk').1 hk] at hs
      rw [← hs, (hM _ i).2 ⟨k', hk', rfl⟩] at hn; cases hn
    · intro i hi
      obtain ⟨k', hk', hb⟩ := (hM _ i).1 hi
      exact ⟨k', hk', (lpm_same_iff (h.ok i k' hk').1 hk).2 hb.symm⟩
  add := fun h k i hk hi hf _ hnew => lpm_add h k i hk hi hf hnew
  delete := by
    intro s n E h i k hk
    obtain ⟨M, hr, hM⟩ := h.trie
    have hok := (h.ok i k hk).1
    obtain ⟨b, t', e, hr', _⟩ := hr.exec (.delete k.data k.prefixLength) hok
    refine ⟨t', ?_, ⟨_, hr', ?_⟩, ?_⟩
    · simp only [LpmTrie.exec] at e
      simp [lpmStr, e]
    · intro bits j
      simp only [LOp.apply]
      by_cases hb : bits = prefixBits k.data k.prefixLength
      · simp only [hb, if_true]
        constructor
        · intro e; cases e
        · rintro ⟨k', hk', hb'⟩
          by_cases hj : j = i
          · simp [hj] at hk'
          · simp only [hj, if_false] at hk'
            have h1 := (hM _ j).2 ⟨k', hk', rfl⟩
            have h2 := (hM _ i).2 ⟨k, hk, rfl⟩
            rw [← hb', h2] at h1
            exact absurd (Option.some.inj h1).symm hj
      · simp only [hb, if_false, hM]
        by_cases hj : j = i
        · subst hj
          simp only [if_true, hk, Option.some.injEq]
          constructor
          · rintro ⟨k', rfl, e⟩; exact absurd e hb
          · rintro ⟨k', e, _⟩; cases e
        · simp only [hj, if_false]
    · intro j k' hk'
      by_cases hj : j = i
      · simp [hj] at hk'
      · simp only [hj, if_false] at hk'; exact h.ok j k' hk'
  clear := by
    intro s n E h
    obtain ⟨M, hr, hM⟩ := h.trie
    obtain ⟨b, t', e, hr', _⟩ := hr.exec .clear trivial
    have : t' = s.clear := by simp only [LpmTrie.exec] at e; cases e; rfl
    subst this
    exact ⟨⟨_, hr', by simp [LOp.apply]⟩, by simp⟩

end Bm
