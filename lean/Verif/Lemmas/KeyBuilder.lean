import Verif.Model.KeyBuilder
import Verif.Lemmas.LookupLaws
import Mathlib.Algebra.BigOperators.Group.List.Basic
import Mathlib.Data.List.Nodup

/-! # Lemmas about the key builder: layout -/

namespace Bm
open Spec

/-! ## Lists made of chunks -/

/-- The bytes at the place of chunk `j`. -/
theorem slice_flatten (L : List Bytes) (j : Nat) (c : Bytes) (h : L[j]? = some c) :
    slice L.flatten ((L.take j).map List.length).sum c.length = some c := by
  induction L generalizing j with
  | nil => simp at h
  | cons a L ih =>
    cases j with
    | zero =>
      simp only [List.getElem?_cons_zero, Option.some.injEq] at h
      subst h
      simp [slice]
    | succ j =>
      simp only [List.getElem?_cons_succ] at h
      have := ih j h
      simp only [slice] at this ⊢
      simp only [List.take_succ_cons, List.map_cons, List.sum_cons, List.flatten_cons]
      split at this
      · rename_i hle
        simp only [Option.some.injEq] at this
        rw [if_pos (by simp only [List.length_append]; omega)]
        rw [List.drop_append]
        simp only [Option.some.injEq]
        rw [show List.drop (a.length + ((L.take j).map List.length).sum) a = [] from by
          simp, List.nil_append]
        rw [show a.length + ((L.take j).map List.length).sum - a.length
          = ((L.take j).map List.length).sum from by omega]
        exact this
      · simp at this

theorem zipWith_flatten {ι : Type} (f : UInt8 → UInt8 → UInt8) (a b : ι → Bytes) (l : List ι)
    (h : ∀ i ∈ l, (a i).length = (b i).length) :
    List.zipWith f (l.map a).flatten (l.map b).flatten
      = (l.map fun i => List.zipWith f (a i) (b i)).flatten := by
  induction l with
  | nil => rfl
  | cons i l ih =>
    simp only [List.map_cons, List.flatten_cons]
    rw [List.zipWith_append (h i (by simp)), ih (fun j hj => h j (by simp [hj]))]

theorem flatten_map_inj {ι : Type} (a b : ι → Bytes) (l : List ι)
    (h : ∀ i ∈ l, (a i).length = (b i).length) :
    (l.map a).flatten = (l.map b).flatten ↔ ∀ i ∈ l, a i = b i := by
  induction l with
  | nil => simp
  | cons i l ih =>
    simp only [List.map_cons, List.flatten_cons, List.mem_cons, forall_eq_or_imp]
    rw [← ih (fun j hj => h j (by simp [hj]))]
    constructor
    · intro e
      exact List.append_inj e (h i (by simp))
    · rintro ⟨e1, e2⟩
      rw [e1, e2]

theorem flatten_map_length {ι : Type} (a : ι → Bytes) (w : ι → Nat) (l : List ι)
    (h : ∀ i ∈ l, (a i).length = w i) : (l.map a).flatten.length = (l.map w).sum := by
  induction l with
  | nil => rfl
  | cons i l ih =>
    simp only [List.map_cons, List.flatten_cons, List.length_append, List.sum_cons]
    rw [h i (by simp), ih (fun j hj => h j (by simp [hj]))]

theorem runningOffsets_getElem? (fs : List KeyF) (o j : Nat) :
    (runningOffsets o fs)[j]? =
      if j < fs.length then some (o + ((fs.take j).map KeyF.nbytes).sum) else none := by
  induction fs generalizing o j with
  | nil => simp [runningOffsets]
  | cons f fs ih =>
    cases j with
    | zero => simp [runningOffsets]
    | succ j =>
      simp only [runningOffsets, List.getElem?_cons_succ, ih, List.length_cons,
        Nat.add_lt_add_iff_right, List.take_succ_cons, List.map_cons, List.sum_cons]
      simp only [Nat.add_assoc]

theorem mapM_eq_some_map {α β : Type} (f : α → Option β) (g : α → β) (l : List α)
    (h : ∀ a ∈ l, f a = some (g a)) : l.mapM f = some (l.map g) := by
  induction l with
  | nil => rfl
  | cons a l ih =>
    simp [List.mapM_cons, h a (by simp), ih (fun b hb => h b (by simp [hb]))]

/-! ## The order of the fields -/

/-- The declared field at position `i`. -/
def fAt (fs : List KeyF) (i : Nat) : KeyF := (fs[i]?).getD ⟨.exact, 0, none⟩

theorem fAt_eq {fs : List KeyF} {i : Nat} (h : i < fs.length) : fs[i]? = some (fAt fs i) := by
  simp [fAt, h]

theorem fAt_mem {fs : List KeyF} {i : Nat} (h : i < fs.length) : fAt fs i ∈ fs := by
  have := fAt_eq h
  exact List.mem_of_getElem? this

theorem sortLe_trans (fs : List KeyF) (a b c : Nat) (h1 : sortLe fs a b = true)
    (h2 : sortLe fs b c = true) : sortLe fs a c = true := by
  unfold sortLe at *
  split at h1 <;> split at h2 <;> split <;> simp only [decide_eq_true_eq] at * <;> omega

theorem sortLe_total (fs : List KeyF) (a b : Nat) :
    (sortLe fs a b || sortLe fs b a) = true := by
  unfold sortLe
  simp only [Bool.or_eq_true]
  split <;> split <;> simp only [decide_eq_true_eq] <;> omega

theorem sortLe_type {fs : List KeyF} {a b : Nat} (h : sortLe fs a b = true)
    (ha : a < fs.length) (hb : b < fs.length) :
    (fAt fs a).mtype.toNat ≤ (fAt fs b).mtype.toNat := by
  have e (i) (hi : i < fs.length) : typeAt fs i = (fAt fs i).mtype.toNat := by
    simp only [typeAt, fAt_eq hi]
  unfold sortLe at h
  rw [e a ha, e b hb] at h
  split at h
  · omega
  · simp only [decide_eq_true_eq] at h; omega

/-- What `build` establishes. -/
structure KeyB.Ok (fs : List KeyF) (kb : KeyB) : Prop where
  perm : kb.invMapping.Perm (List.range fs.length)
  sorted : kb.invMapping.Pairwise (fun a b => sortLe fs a b = true)
  input : kb.keyInput = kb.invMapping.map (fAt fs)
  kmLen : kb.keyMapping.length = fs.length
  km : ∀ i : Nat, i < fs.length → ∃ j : Nat, kb.keyMapping[i]? = some j ∧ kb.invMapping[j]? = some i
  off : ∀ (i j : Nat), kb.keyMapping[i]? = some j →
    kb.keyOffsets[i]? = some ((kb.keyInput.take j).map KeyF.nbytes).sum
  nbytes : kb.nbytesKey = (kb.invMapping.map (fun i => (fAt fs i).nbytes)).sum
  big : kb.bigMask = (kb.invMapping.map (fun i => (fAt fs i).maskBytes)).flatten
  hasBig : kb.hasBigMask = fs.any (fun f => f.smask.isSome)

theorem set_foldlM (inv : List Nat) (l : List Nat) (n : Nat) : ∀ (km : List Nat),
    km.length = n → (∀ i ∈ l, ∃ p, inv[i]? = some p ∧ p < n) →
    ∃ km', l.foldlM (fun (km : List Nat) idx => do
      let p ← inv[idx]?
      if p < km.length then some (km.set p idx) else none) km = some km' ∧ km'.length = n ∧
      ∀ p, (∃ i ∈ l, inv[i]? = some p ∧ km'[p]? = some i) ∨
        ((∀ i ∈ l, inv[i]? ≠ some p) ∧ km'[p]? = km[p]?) := by
  induction l with
  | nil =>
    intro km hl _
    exact ⟨km, rfl, hl, fun p => .inr ⟨by simp, rfl⟩⟩
  | cons x l ih =>
    intro km hl hx
    obtain ⟨p, e, hp⟩ := hx x (by simp)
    obtain ⟨km', e', hl', hk⟩ := ih (km.set p x) (by simp [hl]) (fun i hi => hx i (by simp [hi]))
    refine ⟨km', ?_, hl', ?_⟩
    · simp only [List.foldlM_cons, e, Option.bind_eq_bind, Option.bind_some, hl, hp, if_true]
      exact e'
    · intro q
      rcases hk q with ⟨i, hi, h1, h2⟩ | ⟨h1, h2⟩
      · exact .inl ⟨i, by simp [hi], h1, h2⟩
      · by_cases hq : q = p
        · subst hq
          refine .inl ⟨x, by simp, e, ?_⟩
          rw [h2, List.getElem?_set_self (by omega)]
        · refine .inr ⟨?_, ?_⟩
          · intro i hi
            rcases List.mem_cons.mp hi with rfl | hi
            · rw [e]; simpa using fun h => hq h.symm
            · exact h1 i hi
          · rw [h2, List.getElem?_set_ne (Ne.symm hq)]

theorem overwrite_getElem? {x y c : Bytes} {o : Nat} (h : overwrite x o c = some y) (i : Nat) :
    y.length = x.length ∧
    y[i]? = if o ≤ i ∧ i < o + c.length then c[i - o]? else x[i]? := by
  unfold overwrite at h
  split at h
  · rename_i hle
    simp only [Option.some.injEq] at h
    subst h
    constructor
    · simp only [List.length_append, List.length_take, List.length_drop]; omega
    · rw [List.getElem?_append, List.getElem?_append]
      simp only [List.length_append, List.length_take]
      rw [show min o x.length = o from by omega]
      by_cases h1 : i < o
      · rw [if_pos (by omega), if_pos h1, if_neg (by omega)]
        rw [List.getElem?_take, if_pos h1]
      · by_cases h2 : i < o + c.length
        · rw [if_pos h2, if_neg h1, if_pos (by omega)]
        · rw [if_neg h2, if_neg (by omega), List.getElem?_drop]
          congr 1; omega
  · simp at h

theorem slice_getElem? {x c : Bytes} {o n : Nat} (h : slice x o n = some c) (i : Nat)
    (hi : i < n) : c[i]? = x[o + i]? ∧ c.length = n := by
  unfold slice at h
  split at h
  · rename_i hle
    simp only [Option.some.injEq] at h
    subst h
    rw [List.getElem?_take, if_pos hi, List.getElem?_drop]
    exact ⟨rfl, by simp only [List.length_take, List.length_drop]; omega⟩
  · simp at h

/-- Copying chunks that agree with a target gives the target wherever something is copied. -/
theorem copyMasks_spec (T : Bytes) (fs : List KeyF) : ∀ (os : List Nat) (x : Bytes),
    os.length = fs.length → x.length = T.length →
    (∀ (k o : Nat) (f : KeyF), os[k]? = some o → fs[k]? = some f →
      slice T o f.maskBytes.length = some f.maskBytes) →
    ∃ y, copyMasks x fs os = some y ∧ y.length = T.length ∧ ∀ i : Nat, y[i]? = T[i]? ∨
      (y[i]? = x[i]? ∧ ∀ (k o : Nat) (f : KeyF), os[k]? = some o → fs[k]? = some f →
        ¬ (o ≤ i ∧ i < o + f.maskBytes.length)) := by
  induction fs with
  | nil =>
    intro os x hl hx _
    cases os with
    | nil => exact ⟨x, rfl, hx, fun i => .inr ⟨rfl, by simp⟩⟩
    | cons => simp at hl
  | cons f fs ih =>
    intro os x hl hx h
    cases os with
    | nil => simp at hl
    | cons o os =>
      have h0 := h 0 o f rfl rfl
      have hle : o + f.maskBytes.length ≤ x.length := by
        unfold slice at h0
        split at h0
        · omega
        · simp at h0
      obtain ⟨z, hz⟩ : ∃ z, overwrite x o f.maskBytes = some z := by
        unfold overwrite; rw [if_pos hle]; exact ⟨_, rfl⟩
      obtain ⟨y, e, hy, hi⟩ := ih os z (by simpa using hl)
        (by rw [(overwrite_getElem? hz 0).1, hx])
        (fun k o f h1 h2 => h (k + 1) o f h1 h2)
      refine ⟨y, by simp only [copyMasks, hz, Option.bind_eq_bind, Option.bind_some, e], hy, ?_⟩
      intro i
      rcases hi i with h1 | ⟨h1, h2⟩
      · exact .inl h1
      · have hg := (overwrite_getElem? hz i).2
        by_cases hin : o ≤ i ∧ i < o + f.maskBytes.length
        · rw [if_pos hin] at hg
          left
          rw [h1, hg, (slice_getElem? h0 (i - o) (by omega)).1]
          congr 1; omega
        · rw [if_neg hin] at hg
          right
          refine ⟨by rw [h1, hg], ?_⟩
          intro k o' f' ho hf
          cases k with
          | zero =>
            simp only [List.getElem?_cons_zero, Option.some.injEq] at ho hf
            subst ho; subst hf; exact hin
          | succ k => exact h2 k o' f' ho hf

theorem flatten_cover (L : List Bytes) (i : Nat) (h : i < L.flatten.length) :
    ∃ (j : Nat) (c : Bytes), L[j]? = some c ∧ ((L.take j).map List.length).sum ≤ i ∧
      i < ((L.take j).map List.length).sum + c.length := by
  induction L generalizing i with
  | nil => simp at h
  | cons a L ih =>
    by_cases hi : i < a.length
    · exact ⟨0, a, rfl, by simp, by simpa using hi⟩
    · simp only [List.flatten_cons, List.length_append] at h
      obtain ⟨j, c, e, h1, h2⟩ := ih (i - a.length) (by omega)
      refine ⟨j + 1, c, e, ?_, ?_⟩ <;>
        simp only [List.take_succ_cons, List.map_cons, List.sum_cons] <;> omega

/-- Well-formed declarations: fields are not empty, static masks have the size of the field. -/
def FieldsOk (fs : List KeyF) : Prop :=
  ∀ f ∈ fs, 1 ≤ f.nbits ∧ ∀ m, f.smask = some m → m.length = f.nbytes

theorem maskBytes_length {f : KeyF} (h : ∀ m, f.smask = some m → m.length = f.nbytes) :
    f.maskBytes.length = f.nbytes := by
  unfold KeyF.maskBytes
  cases e : f.smask with
  | none => simp
  | some m => simp [h m e]

theorem KeyB.build_ok (fs : List KeyF) (hfs : FieldsOk fs) :
    ∃ kb, KeyB.build fs = some kb ∧ kb.Ok fs := by
  have hml : ∀ f ∈ fs, f.maskBytes.length = f.nbytes := fun f hf => maskBytes_length (hfs f hf).2
  generalize hinv : (List.range fs.length).insertionSort (fun i j => sortLe fs i j = true) = inv
  have hperm : inv.Perm (List.range fs.length) := by
    rw [← hinv]; exact List.perm_insertionSort _ _
  have hsorted : inv.Pairwise (fun a b => sortLe fs a b = true) := by
    rw [← hinv]
    have : Std.Total (fun i j => sortLe fs i j = true) :=
      ⟨fun a b => by have := sortLe_total fs a b; simpa using this⟩
    have : IsTrans Nat (fun i j => sortLe fs i j = true) := ⟨sortLe_trans fs⟩
    exact List.pairwise_insertionSort _ _
  have hmem : ∀ i, i ∈ inv ↔ i < fs.length := by
    intro i; rw [hperm.mem_iff, List.mem_range]
  have hlen : inv.length = fs.length := by rw [hperm.length_eq, List.length_range]
  have hnd : inv.Nodup := hperm.nodup_iff.mpr List.nodup_range
  have hin : inv.mapM (fun idx => fs[idx]?) = some (inv.map (fAt fs)) :=
    mapM_eq_some_map _ _ _ (fun a ha => fAt_eq ((hmem a).mp ha))
  obtain ⟨km, hkm, hkl, hk⟩ := set_foldlM inv inv fs.length (List.replicate fs.length 0)
    (by simp) (by
      intro i hi
      have : i < inv.length := by rw [hlen]; exact (hmem i).mp hi
      exact ⟨inv[i], by simp [this], (hmem _).mp (List.getElem_mem _)⟩)
  have hkm' : ∀ i : Nat, i < fs.length → ∃ j : Nat, km[i]? = some j ∧ inv[j]? = some i := by
    intro i hi
    rcases hk i with ⟨j, _, h1, h2⟩ | ⟨h1, _⟩
    · exact ⟨j, h2, h1⟩
    · exfalso
      obtain ⟨j, hj, e⟩ := List.getElem_of_mem ((hmem i).mpr hi)
      exact h1 j ((hmem j).mpr (by omega)) (by simp [hj, e])
  let off (j : Nat) : Nat := (((inv.map (fAt fs)).take j).map KeyF.nbytes).sum
  have hoff : km.mapM (fun j => (runningOffsets 0 (inv.map (fAt fs)))[j]?)
      = some (km.map off) := by
    refine mapM_eq_some_map _ _ _ ?_
    intro j hj
    obtain ⟨i, hi, e⟩ := List.getElem_of_mem hj
    obtain ⟨j', h1, h2⟩ := hkm' i (by omega)
    have : j' = j := by
      have : km[i]? = some j := by simp [hi, e]
      rw [this] at h1; simpa using h1.symm
    subst this
    have hj' : j' < inv.length := by
      by_contra hc
      rw [List.getElem?_eq_none (by omega)] at h2; simp at h2
    rw [runningOffsets_getElem?, if_pos (by simpa using hj')]
    simp only [Nat.zero_add]; rfl
  have hTl : (inv.map (fun i => (fAt fs i).maskBytes)).flatten.length
      = (fs.map KeyF.nbytes).sum := by
    rw [flatten_map_length _ (fun i => (fAt fs i).nbytes) _
      (fun i hi => hml _ (fAt_mem ((hmem i).mp hi)))]
    rw [(hperm.map _).sum_eq]
    congr 1
    apply List.ext_getElem?
    intro i
    simp only [List.getElem?_map]
    by_cases hi : i < fs.length
    · simp [hi, fAt]
    · simp [Nat.not_lt.mp hi]
  have htake : ∀ j, (((inv.map (fun i => (fAt fs i).maskBytes)).take j).map List.length).sum
      = off j := by
    intro j
    simp only [off, List.map_take, List.map_map]
    congr 2
    apply List.map_congr_left
    intro i hi
    exact hml _ (fAt_mem ((hmem i).mp hi))
  obtain ⟨y, hy, hyl, hyi⟩ := copyMasks_spec (inv.map (fun i => (fAt fs i).maskBytes)).flatten
    fs (km.map off) (List.replicate (fs.map KeyF.nbytes).sum 0) (by simp [hkl])
    (by simp [hTl]) (by
      intro k o f ho hf
      have hkf : k < fs.length := by
        by_contra hc
        rw [List.getElem?_eq_none (by omega)] at hf; simp at hf
      obtain ⟨j, h1, h2⟩ := hkm' k hkf
      rw [List.getElem?_map, h1] at ho
      simp only [Option.map_some, Option.some.injEq] at ho
      subst ho
      rw [fAt_eq hkf] at hf
      simp only [Option.some.injEq] at hf
      subst hf
      rw [← htake j]
      exact slice_flatten _ _ _ (by rw [List.getElem?_map, h2]; rfl))
  have hyT : y = (inv.map (fun i => (fAt fs i).maskBytes)).flatten := by
    apply List.ext_getElem?
    intro i
    rcases hyi i with h | ⟨h, hno⟩
    · exact h
    · by_cases hi : i < (inv.map (fun i => (fAt fs i).maskBytes)).flatten.length
      · exfalso
        obtain ⟨j, c, e, h1, h2⟩ := flatten_cover _ i hi
        rw [htake] at h1 h2
        rw [List.getElem?_map] at e
        obtain ⟨k, ek, hc⟩ := Option.map_eq_some_iff.mp e
        subst hc
        have hkf : k < fs.length := (hmem k).mp (List.mem_of_getElem? ek)
        obtain ⟨j', h3, h4⟩ := hkm' k hkf
        have : j' = j := by
          have h5 : j' < inv.length := by
            by_contra hc
            rw [List.getElem?_eq_none (by omega)] at h4; simp at h4
          exact (List.getElem?_inj h5 hnd).mp (by rw [h4, ek])
        subst this
        exact hno k _ _ (by rw [List.getElem?_map, h3]; rfl) (fAt_eq hkf) ⟨h1, h2⟩
      · rw [List.getElem?_eq_none (by omega), List.getElem?_eq_none (by omega)]
  refine ⟨⟨inv.map (fAt fs), km, inv, km.map off, (fs.map KeyF.nbytes).sum,
    fs.any (fun f => f.smask.isSome), y⟩, ?_, ?_⟩
  · unfold KeyB.build
    have hany : fs.any (fun f => decide (f.maskBytes.length ≠ f.nbytes)) = false := by
      rw [List.any_eq_false]
      intro f hf
      simp [hml f hf]
    simp only [Option.bind_eq_bind] at hkm
    simp only [hany, Bool.false_eq_true, if_false, hinv, hin, Option.bind_eq_bind,
      Option.bind_some, hkm, hoff, hy, Option.pure_def]
  · exact {
      perm := hperm
      sorted := hsorted
      input := rfl
      kmLen := hkl
      km := hkm'
      off := by
        intro i j h
        simp only [List.getElem?_map, h, Option.map_some]
        rfl
      nbytes := by
        simp only
        rw [← hTl]
        rw [flatten_map_length _ (fun i => (fAt fs i).nbytes) _
          (fun i hi => hml _ (fAt_mem ((hmem i).mp hi)))]
      big := hyT
      hasBig := rfl }

end Bm
