import Verif.Model.PiMc
import Verif.Spec.PiMc

/-!
# Lemmas about port lists
-/

namespace Bm.PiMc

open Bm.PiMc.Spec

theorem resize_length (s : List Bool) (n : Nat) : (resize s n).length = n := by
  simp [resize]; omega

theorem mark_length (s : List Bool) (port : Nat) : (mark s port).length = port + 1 := by
  simp [mark, resize_length]

theorem resize_get (s : List Bool) (n i : Nat) : (resize s n).getD i false = (decide (i < n) && s.getD i false) := by
  simp only [resize, List.getD_eq_getElem?_getD, List.getElem?_append, List.length_take, List.getElem?_take,
    List.getElem?_replicate]
  by_cases h : i < n <;> by_cases h' : i < s.length
  · rw [if_pos (by omega), if_pos h]; simp [h]
  · rw [if_neg (by omega), if_pos (by omega)]
    simp [List.getElem?_eq_none (show s.length ≤ i by omega)]
  · rw [if_neg (by omega), if_neg (by omega)]; simp [h]
  · rw [if_neg (by omega), if_neg (by omega)]; simp [h]

theorem mark_get (s : List Bool) (port i : Nat) :
    (mark s port).getD i false = true ↔ i = port ∨ (i < port ∧ s.getD i false = true) := by
  unfold mark
  have hl := resize_length s (port + 1)
  have hr := resize_get s (port + 1) i
  rw [List.getD_eq_getElem?_getD] at hr ⊢
  rw [List.getElem?_set]
  by_cases h : port = i
  · subst h
    simp [hl]
  · rw [if_neg h, hr]
    simp only [Bool.and_eq_true, decide_eq_true_eq]
    constructor
    · rintro ⟨h1, h2⟩
      exact .inr ⟨by omega, h2⟩
    · rintro (h1 | ⟨h1, h2⟩)
      · omega
      · exact ⟨by omega, h2⟩

theorem survives_snoc (ports : List Nat) (q p : Nat) :
    Survives (ports ++ [q]) p ↔ p = q ∨ (p < q ∧ Survives ports p) := by
  constructor
  · rintro ⟨a, b, h1, h2⟩
    rcases List.eq_nil_or_concat b with rfl | ⟨b', x, rfl⟩
    · left
      have := List.append_inj_right' h1 rfl
      simpa using this.symm
    · rw [List.concat_eq_append, ← List.cons_append, ← List.append_assoc] at h1
      have h3 := List.append_inj' h1 rfl
      have hx : q = x := by simpa using h3.2
      subst hx
      have := h2 q (by simp)
      by_cases h : p = q
      · exact .inl h
      · exact .inr ⟨by omega, a, b', h3.1, fun y hy => h2 y (by simp [hy])⟩
  · rintro (rfl | ⟨h, a, b, rfl, h2⟩)
    · exact ⟨ports, [], rfl, by simp⟩
    · refine ⟨a, b ++ [q], by simp, fun y hy => ?_⟩
      rcases List.mem_append.1 hy with hy | hy
      · exact h2 y hy
      · rcases List.mem_singleton.1 hy with rfl
        omega

/-- What the loop marks. -/
theorem marked (ports : List Nat) : (ports = [] ∨ (ports.foldl mark []).length = lastPort ports + 1) ∧
    ∀ i, (ports.foldl mark []).getD i false = true ↔ Survives ports i := by
  induction ports using List.reverseRecOn with
  | nil =>
    refine ⟨.inl rfl, fun i => ?_⟩
    simp only [List.foldl_nil, List.getD_nil, Bool.false_eq_true, false_iff]
    rintro ⟨a, b, h, _⟩
    simp at h
  | append_singleton ports q ih =>
    refine ⟨.inr ?_, fun i => ?_⟩
    · simp [mark_length, lastPort]
    · rw [List.foldl_append, List.foldl_cons, List.foldl_nil, mark_get, survives_snoc, ih.2]

/-- Bits of a set made from a string. -/
theorem bitset_get (s : List Bool) (i : Nat) :
    (bitset s.reverse).getLsbD i = (decide (i < 512) && s.getD (s.length - 512 + i) false) := by
  unfold bitset
  rw [BitVec.getLsbD_setWidth, BitVec.getLsbD_ofBoolListLE]
  congr 1
  rw [List.take_reverse, List.reverse_reverse, List.getD_eq_getElem?_getD, List.getD_eq_getElem?_getD,
    List.getElem?_drop]

end Bm.PiMc
