import Verif.Model.P4dbg

/-!
# Names of fields and objects
-/

namespace Bm.P4dbg

open Bm.P4dbg.Spec

theorem dict_iff {α β : Type} [DecidableEq α] {l : List (α × β)} (hf : ∀ x ∈ l, ∀ y ∈ l, x.1 = y.1 → x.2 = y.2)
    (k : α) (v : β) : dict l k = some v ↔ (k, v) ∈ l := by
  unfold dict
  constructor
  · intro h
    rw [Option.map_eq_some_iff] at h
    obtain ⟨x, hx, rfl⟩ := h
    have h1 := List.mem_of_find?_eq_some hx
    have h2 := List.find?_some hx
    simp only [beq_iff_eq] at h2
    subst h2
    exact List.mem_reverse.mp h1
  · intro h
    have hs : (l.reverse.find? fun x => x.1 == k).isSome = true := by
      rw [List.find?_isSome]
      exact ⟨(k, v), List.mem_reverse.mpr h, by simp⟩
    obtain ⟨x, hx⟩ := Option.isSome_iff_exists.mp hs
    rw [hx]
    have h1 := List.mem_of_find?_eq_some hx
    have h2 := List.find?_some hx
    simp only [beq_iff_eq] at h2
    simp only [Option.map_some, Option.some.injEq]
    exact hf x (List.mem_reverse.mp h1) (k, v) h h2

theorem shl_or {a b k : Nat} (h : b < 2 ^ k) : (a <<< k) ||| b = a * 2 ^ k + b := by
  rw [← Nat.shiftLeft_add_eq_or_of_lt h, Nat.shiftLeft_eq]

theorem mem_fieldList {P : Program} {x : (Nat × Nat) × String} : x ∈ fieldList P ↔
    ∃ h ∈ P.headers, ∃ i n, (h.2.2 ++ ["$valid$"])[i]? = some n ∧ x = ((h.1, i), h.2.1 ++ "." ++ n) := by
  unfold fieldList
  rw [List.mem_flatMap]
  constructor
  · rintro ⟨h, hh, hx⟩
    rw [List.mem_map] at hx
    obtain ⟨⟨n, i⟩, hm, rfl⟩ := hx
    rw [List.mem_zipIdx_iff_getElem?] at hm
    exact ⟨h, hh, i, n, hm, rfl⟩
  · rintro ⟨h, hh, i, n, hm, rfl⟩
    refine ⟨h, hh, ?_⟩
    rw [List.mem_map]
    exact ⟨(n, i), List.mem_zipIdx_iff_getElem?.mpr hm, rfl⟩

/-- Fields and names. -/
theorem named_list {P : Program} (ok : P.Ok) {f : String} {a b : Nat} :
    ((a, b), f) ∈ fieldList P ↔ Named P f (a * 2 ^ 32 + b) ∧ f ≠ "$cond" ∧ f ≠ "$action" ∧ b < 2 ^ 32 := by
  rw [mem_fieldList]
  constructor
  · rintro ⟨h, hh, i, n, hm, e⟩
    cases e
    have hb := ok.hdr h hh
    have hi : b < (h.2.2 ++ ["$valid$"]).length := (List.getElem?_eq_some_iff.mp hm).1
    simp only [List.length_append, List.length_cons, List.length_nil] at hi
    have hs := ok.special h hh n (List.mem_of_getElem? hm)
    exact ⟨.inr (.inr ⟨hs.1, hs.2, h, hh, b, n, hm, rfl, rfl⟩), hs.1, hs.2, by omega⟩
  · rintro ⟨hn, h1, h2, hb⟩
    rcases hn with ⟨rfl, -⟩ | ⟨rfl, -⟩ | ⟨-, -, h, hh, i, n, hm, rfl, hid⟩
    · exact absurd rfl h1
    · exact absurd rfl h2
    · have hbd := ok.hdr h hh
      have hi : i < (h.2.2 ++ ["$valid$"]).length := (List.getElem?_eq_some_iff.mp hm).1
      simp only [List.length_append, List.length_cons, List.length_nil] at hi
      have e1 : a = h.1 := by omega
      have e2 : b = i := by omega
      subst e1 e2
      exact ⟨h, hh, b, n, hm, rfl⟩

theorem named_special {P : Program} {f : String} {id : Nat} (h : Named P f id) (h1 : f ≠ "$cond") (h2 : f ≠ "$action") :
    ∃ a b, id = a * 2 ^ 32 + b ∧ ((a, b), f) ∈ fieldList P := by
  rcases h with ⟨rfl, -⟩ | ⟨rfl, -⟩ | ⟨-, -, h, hh, i, n, hm, rfl, hid⟩
  · exact absurd rfl h1
  · exact absurd rfl h2
  · exact ⟨h.1, i, hid, mem_fieldList.mpr ⟨h, hh, i, n, hm, rfl⟩⟩

theorem named_lt {P : Program} (ok : P.Ok) {f : String} {id : Nat} (h : Named P f id) : id < 2 ^ 64 - 1 := by
  rcases h with ⟨rfl, rfl⟩ | ⟨rfl, rfl⟩ | ⟨-, -, h, hh, i, n, hm, rfl, hid⟩
  · decide
  · decide
  · have hbd := ok.hdr h hh
    have hi : i < (h.2.2 ++ ["$valid$"]).length := (List.getElem?_eq_some_iff.mp hm).1
    simp only [List.length_append, List.length_cons, List.length_nil] at hi
    omega

theorem named_not_special {P : Program} (ok : P.Ok) {f : String} {id : Nat} (h : Named P f id) (h1 : f ≠ "$cond")
    (h2 : f ≠ "$action") : id ≠ condField ∧ id ≠ actionField := by
  rcases h with ⟨rfl, -⟩ | ⟨rfl, -⟩ | ⟨-, -, h, hh, i, n, hm, rfl, hid⟩
  · exact absurd rfl h1
  · exact absurd rfl h2
  · have hbd := ok.hdr h hh
    have hi : i < (h.2.2 ++ ["$valid$"]).length := (List.getElem?_eq_some_iff.mp hm).1
    simp only [List.length_append, List.length_cons, List.length_nil] at hi
    unfold condField actionField
    omega

theorem fieldIdFrom_iff {P : Program} (ok : P.Ok) (f : String) (id : Nat) :
    fieldIdFrom P f = some id ↔ Named P f id := by
  unfold fieldIdFrom
  by_cases h1 : f = "$cond"
  · subst h1
    rw [if_pos rfl]
    constructor
    · intro h; cases h; exact .inl ⟨rfl, by decide⟩
    · rintro (⟨-, rfl⟩ | ⟨h, -⟩ | ⟨h, -⟩)
      · rfl
      · exact absurd h (by decide)
      · exact absurd rfl h
  rw [if_neg h1]
  by_cases h2 : f = "$action"
  · subst h2
    rw [if_pos rfl]
    constructor
    · intro h; cases h; exact .inr (.inl ⟨rfl, by decide⟩)
    · rintro (⟨h, -⟩ | ⟨-, rfl⟩ | ⟨-, h, -⟩)
      · exact absurd h (by decide)
      · rfl
      · exact absurd rfl h
  rw [if_neg h2]
  unfold fieldId
  have hf : ∀ x ∈ (fieldList P).map Prod.swap, ∀ y ∈ (fieldList P).map Prod.swap, x.1 = y.1 → x.2 = y.2 := by
    intro x hx y hy e
    rw [List.mem_map] at hx hy
    obtain ⟨⟨⟨a, b⟩, g⟩, hx, rfl⟩ := hx
    obtain ⟨⟨⟨c, d⟩, g'⟩, hy, rfl⟩ := hy
    simp only [Prod.swap] at e ⊢
    subst e
    have l1 := (named_list ok).mp hx
    have l2 := (named_list ok).mp hy
    have := ok.name _ _ _ l1.1 l2.1
    have hb := l1.2.2.2
    have hd := l2.2.2.2
    simp only [Prod.mk.injEq]
    omega
  rw [Option.map_eq_some_iff]
  constructor
  · rintro ⟨⟨a, b⟩, hx, rfl⟩
    rw [dict_iff hf, List.mem_map] at hx
    obtain ⟨⟨⟨c, d⟩, g⟩, hx, e⟩ := hx
    simp only [Prod.swap, Prod.mk.injEq] at e
    obtain ⟨rfl, rfl, rfl⟩ := e
    have l1 := (named_list ok).mp hx
    simp only
    rw [shl_or l1.2.2.2]
    exact l1.1
  · intro h
    obtain ⟨a, b, rfl, hm⟩ := named_special h h1 h2
    refine ⟨(a, b), ?_, ?_⟩
    · rw [dict_iff hf, List.mem_map]
      exact ⟨_, hm, rfl⟩
    · exact shl_or ((named_list ok).mp hm).2.2.2

theorem fieldName_iff {P : Program} (ok : P.Ok) {id : Nat} (h1 : id ≠ condField) (h2 : id ≠ actionField) (f : String) :
    fieldName P id = some f ↔ Named P f id := by
  unfold fieldName
  have hf : ∀ x ∈ fieldList P, ∀ y ∈ fieldList P, x.1 = y.1 → x.2 = y.2 := by
    rintro ⟨⟨a, b⟩, g⟩ hx ⟨⟨c, d⟩, g'⟩ hy e
    simp only [Prod.mk.injEq] at e
    obtain ⟨rfl, rfl⟩ := e
    exact ok.num _ _ _ ((named_list ok).mp hx).1 ((named_list ok).mp hy).1
  have e : id &&& 0xffffffff = id % 2 ^ 32 := Nat.and_two_pow_sub_one_eq_mod id 32
  rw [dict_iff hf, e, Nat.shiftRight_eq_div_pow, named_list ok, Nat.div_add_mod']
  constructor
  · intro h; exact h.1
  · intro h
    have hc : f ≠ "$cond" := by
      rintro rfl
      rcases h with ⟨-, rfl⟩ | ⟨h, -⟩ | ⟨h, -⟩
      · exact h1 rfl
      · exact absurd h (by decide)
      · exact h rfl
    have ha : f ≠ "$action" := by
      rintro rfl
      rcases h with ⟨h, -⟩ | ⟨-, rfl⟩ | ⟨-, h, -⟩
      · exact absurd h (by decide)
      · exact h2 rfl
      · exact h rfl
    exact ⟨h, hc, ha, Nat.mod_lt _ (by decide)⟩

/-! ## Objects -/

theorem kinds_type (k : Nat) : typeName (k + 1) = kinds[k]? := by
  rcases k with _ | _ | _ | _ | _ | _ | _ | k <;> rfl

theorem kinds_id (t : String) (k : Nat) : typeId t = some (k + 1) ↔ kinds[k]? = some t := by
  constructor
  · intro h
    unfold typeId at h
    split_ifs at h with h1 h2 h3 h4 h5 h6 h7 <;> cases h <;> subst_vars <;> rfl
  · intro h
    rcases k with _ | _ | _ | _ | _ | _ | _ | k <;>
      first | (cases h; decide) | cases h

theorem typeId_pos {t : String} {k : Nat} (h : typeId t = some k) : ∃ j, k = j + 1 := by
  unfold typeId at h
  split_ifs at h <;> cases h <;> exact ⟨_, rfl⟩

theorem place_mem {P : Program} (ok : P.Ok) {k i : Nat} {o : String} (h : (k, i, o) ∈ P.objs) :
    ∃ j t, k = j + 1 ∧ kinds[j]? = some t ∧ Place P t o (k * 2 ^ 24 + i) ∧ i < 2 ^ 24 ∧ k ≤ 7 := by
  have hk := ok.kind _ h
  obtain ⟨j, rfl⟩ : ∃ j, k = j + 1 := ⟨k - 1, by simp only at hk; omega⟩
  have hj : j < kinds.length := by simp only [kinds, List.length_cons, List.length_nil]; simp only at hk; omega
  exact ⟨j, kinds[j], rfl, List.getElem?_eq_getElem hj, ⟨j, i, h, List.getElem?_eq_getElem hj, rfl⟩, hk.2.2, hk.2.1⟩

theorem place_lt {P : Program} (ok : P.Ok) {t o : String} {v : Nat} (h : Place P t o v) : v < 2 ^ 27 := by
  obtain ⟨k, i, hm, -, rfl⟩ := h
  have := ok.kind _ hm
  simp only at this
  omega

theorem lookupCtr_iff {P : Program} (ok : P.Ok) (t o : String) (v : Nat) : lookupCtr P t o = some v ↔ Place P t o v := by
  have hf : ∀ x ∈ P.objs.map fun x => ((x.1, x.2.2), x.2.1), ∀ y ∈ P.objs.map fun x => ((x.1, x.2.2), x.2.1),
      x.1 = y.1 → x.2 = y.2 := by
    intro x hx y hy e
    rw [List.mem_map] at hx hy
    obtain ⟨⟨k, i, o⟩, hx, rfl⟩ := hx
    obtain ⟨⟨k', i', o'⟩, hy, rfl⟩ := hy
    simp only [Prod.mk.injEq] at e ⊢
    obtain ⟨rfl, rfl⟩ := e
    obtain ⟨j, t, h1, h2, h3, h4, -⟩ := place_mem ok hx
    obtain ⟨j', t', h1', h2', h3', h4', -⟩ := place_mem ok hy
    have : j = j' := by omega
    subst this
    rw [h2] at h2'; cases h2'
    have := ok.place _ _ _ _ h3 h3'
    omega
  unfold lookupCtr
  constructor
  · intro h
    cases ht : typeId t with
    | none => rw [ht] at h; cases h
    | some k =>
      rw [ht] at h
      simp only [Option.map_eq_some_iff] at h
      obtain ⟨i, hi, rfl⟩ := h
      rw [dict_iff hf, List.mem_map] at hi
      obtain ⟨⟨k', i', o'⟩, hm, e⟩ := hi
      simp only [Prod.mk.injEq] at e
      obtain ⟨⟨rfl, rfl⟩, rfl⟩ := e
      obtain ⟨j, t', h1, h2, h3, h4, -⟩ := place_mem ok hm
      subst h1
      rw [kinds_id] at ht
      rw [h2] at ht; cases ht
      rw [shl_or h4]
      exact h3
  · rintro ⟨k, i, hm, hk, rfl⟩
    rw [(kinds_id t k).mpr hk]
    simp only [Option.map_eq_some_iff]
    have hb := ok.kind _ hm
    refine ⟨i, ?_, shl_or hb.2.2⟩
    rw [dict_iff hf, List.mem_map]
    exact ⟨_, hm, rfl⟩

theorem resolve_iff {P : Program} (ok : P.Ok) {v : Nat} (hv : v < 2 ^ 32) (t o : String) :
    resolve P v = some (t, o) ↔ ∃ w, Place P t o w ∧ (v = w ∨ v = w + 2 ^ 31) := by
  have hf : ∀ x ∈ P.objs.map fun x => ((x.1, x.2.1), x.2.2), ∀ y ∈ P.objs.map fun x => ((x.1, x.2.1), x.2.2),
      x.1 = y.1 → x.2 = y.2 := by
    intro x hx y hy e
    rw [List.mem_map] at hx hy
    obtain ⟨⟨k, i, o⟩, hx, rfl⟩ := hx
    obtain ⟨⟨k', i', o'⟩, hy, rfl⟩ := hy
    simp only [Prod.mk.injEq] at e ⊢
    obtain ⟨rfl, rfl⟩ := e
    obtain ⟨j, t, h1, h2, h3, h4, -⟩ := place_mem ok hx
    obtain ⟨j', t', h1', h2', h3', h4', -⟩ := place_mem ok hy
    exact (ok.obj _ _ _ _ _ h3 h3').2
  have e1 : (v >>> 24) &&& 0x7f = v / 2 ^ 24 % 2 ^ 7 := by
    rw [Nat.shiftRight_eq_div_pow]; exact Nat.and_two_pow_sub_one_eq_mod _ 7
  have e2 : v &&& 0xffffff = v % 2 ^ 24 := Nat.and_two_pow_sub_one_eq_mod v 24
  unfold resolve
  rw [e1, e2]
  constructor
  · intro h
    cases ht : typeName (v / 2 ^ 24 % 2 ^ 7) with
    | none => rw [ht] at h; cases h
    | some t' =>
      rw [ht] at h
      simp only [Option.map_eq_some_iff, Prod.mk.injEq] at h
      obtain ⟨o', hi, rfl, rfl⟩ := h
      rw [dict_iff hf, List.mem_map] at hi
      obtain ⟨⟨k', i', o''⟩, hm, e⟩ := hi
      simp only [Prod.mk.injEq] at e
      obtain ⟨⟨h5, h6⟩, rfl⟩ := e
      obtain ⟨j, t'', h1, h2, h3, h4, -⟩ := place_mem ok hm
      rw [← h5, h1, kinds_type, h2] at ht
      cases ht
      refine ⟨_, h3, ?_⟩
      omega
  · rintro ⟨w, ⟨k, i, hm, hk, rfl⟩, hvw⟩
    have hb := ok.kind _ hm
    simp only at hb
    have h1 : v / 2 ^ 24 % 2 ^ 7 = k + 1 := by omega
    have h2 : v % 2 ^ 24 = i := by omega
    rw [h1, h2, kinds_type, hk]
    simp only [Option.map_eq_some_iff, Prod.mk.injEq, true_and]
    refine ⟨o, ?_, rfl⟩
    rw [dict_iff hf, List.mem_map]
    exact ⟨_, hm, rfl⟩

/-! ## Numbers -/

theorem foldl_big (b : Bytes) : ∀ a, b.foldl (fun a x => a * 256 + x.toNat) a = a * 256 ^ b.length + bigEnd b := by
  induction b with
  | nil => intro a; simp [bigEnd]
  | cons x l ih =>
    intro a
    simp only [List.foldl_cons, ih, bigEnd, List.length_cons, Nat.pow_succ]
    rw [Nat.add_mul, Nat.mul_assoc, Nat.mul_comm 256 (256 ^ l.length)]
    omega

theorem bytesInt_eq (b : Bytes) : bytesInt b = bigEnd b := by
  rw [bytesInt, foldl_big]; simp

theorem bigEnd_bytes4 {v : Nat} (h : v < 2 ^ 32) : bigEnd (Bm.Debugger.Spec.bytes4 v) = v := by
  simp only [Bm.Debugger.Spec.bytes4, bigEnd, List.length_cons, List.length_nil, UInt8.toNat_ofNat']
  omega

end Bm.P4dbg
