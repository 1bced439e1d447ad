import Mathlib.Data.Finset.Card

/-!
# `std::unordered_map` with integral keys

Used by several modules (`/repo/include/bm/bm_sim/simple_pre.h:189-191`,
`/repo/include/bm/bm_sim/simple_pre_lag.h:67`).  A list of key/value pairs with distinct keys; the
order of the list is never observed.
-/

namespace Bm

/-- `std::unordered_map<integral, α>`, e.g. `/repo/include/bm/bm_sim/simple_pre.h:189-191`. -/
structure UMap (α : Type) where
  l : List (Nat × α) := []
  nd : (l.map Prod.fst).Nodup := by simp

namespace UMap
variable {α : Type}

/-- `find` / `at` (`none`: not present).  `/repo/src/bm_sim/simple_pre.cpp:88,94`. -/
def find? (m : UMap α) (k : Nat) : Option α := m.l.lookup k

/-- `size()`.  `/repo/src/bm_sim/simple_pre.cpp:28`. -/
def size (m : UMap α) : Nat := m.l.length

theorem lookup_none_iff (l : List (Nat × α)) (k : Nat) :
    l.lookup k = none ↔ k ∉ l.map Prod.fst := by
  induction l with
  | nil => simp
  | cons p l ih =>
    obtain ⟨a, b⟩ := p
    rw [List.lookup_cons]
    by_cases h : k = a
    · subst h; simp
    · simp only [beq_eq_false_iff_ne.2 h, ih, List.map_cons, List.mem_cons, h, false_or]

/-- `insert(std::make_pair(k, v))`: no effect when the key is present.
`/repo/src/bm_sim/simple_pre.cpp:35,72,75`. -/
def insert (m : UMap α) (k : Nat) (v : α) : UMap α :=
  if h : m.l.lookup k = none then
    { l := (k, v) :: m.l,
      nd := by
        rw [List.map_cons, List.nodup_cons]
        exact ⟨(lookup_none_iff _ _).1 h, m.nd⟩ }
  else m

/-- `erase(k)`.  `/repo/src/bm_sim/simple_pre.cpp:43,147,152`. -/
def erase (m : UMap α) (k : Nat) : UMap α where
  l := m.l.filter fun p => p.1 ≠ k
  nd := m.nd.sublist ((List.filter_sublist (p := fun p : Nat × α => p.1 ≠ k)).map _)

/-- Assignment through the reference returned by `find`/`at`; no effect when absent (the callers
have checked).  `/repo/src/bm_sim/simple_pre.cpp:99-101`. -/
def modify (m : UMap α) (k : Nat) (f : α → α) : UMap α where
  l := m.l.map fun p => if p.1 = k then (p.1, f p.2) else p
  nd := by
    have : (m.l.map fun p => if p.1 = k then (p.1, f p.2) else p).map Prod.fst
        = m.l.map Prod.fst := by
      rw [List.map_map]
      refine List.map_congr_left fun p _ => ?_
      simp only [Function.comp]
      split <;> rfl
    rw [this]; exact m.nd

/-- `m[k] = v`.  `/repo/src/bm_sim/simple_pre_lag.cpp:89-91`. -/
def assign (m : UMap α) (k : Nat) (v : α) : UMap α := (m.insert k v).modify k fun _ => v

/-- `for (auto &p : map) p.second = f(p.second)`.  `/repo/include/bm/bm_sim/queueing.h:648,672`. -/
def mapAll (m : UMap α) (f : α → α) : UMap α where
  l := m.l.map fun p => (p.1, f p.2)
  nd := by rw [List.map_map]; exact m.nd

/-- `clear()`.  `/repo/src/bm_sim/simple_pre.cpp:245-247`. -/
def clear (_ : UMap α) : UMap α := {}

/-- The set of keys. -/
def keys (m : UMap α) : Finset Nat := ⟨(m.l.map Prod.fst : List Nat), by simpa using m.nd⟩

theorem size_eq (m : UMap α) : m.size = m.keys.card := by
  simp [size, keys, Finset.card]

theorem mem_keys (m : UMap α) (k : Nat) : k ∈ m.keys ↔ ∃ v, m.find? k = some v := by
  have := lookup_none_iff m.l k
  rw [← Option.isSome_iff_exists, Option.isSome_iff_ne_none, Ne, find?, this]
  simp [keys]

theorem find_none (m : UMap α) (k : Nat) : m.find? k = none ↔ k ∉ m.keys := by
  rw [mem_keys, ← Option.isSome_iff_exists]
  cases m.find? k <;> simp

theorem find_insert (m : UMap α) (k : Nat) (v : α) (h : m.find? k = none) (j : Nat) :
    (m.insert k v).find? j = if j = k then some v else m.find? j := by
  unfold find? at h
  simp only [insert, h, dif_pos, find?, List.lookup_cons]
  by_cases hj : j = k
  · subst hj; simp
  · simp [beq_eq_false_iff_ne.2 hj, hj]

theorem insert_present (m : UMap α) (k : Nat) (v w : α) (h : m.find? k = some w) :
    m.insert k v = m := by
  unfold find? at h
  simp [insert, h]

theorem find_erase (m : UMap α) (k j : Nat) :
    (m.erase k).find? j = if j = k then none else m.find? j := by
  simp only [erase, find?]
  induction m.l with
  | nil => simp
  | cons p l ih =>
    obtain ⟨a, b⟩ := p
    rw [List.filter_cons, List.lookup_cons]
    by_cases ha : a = k
    · subst ha
      simp only [ne_eq, not_true_eq_false, decide_false, Bool.false_eq_true, if_false, ih]
      by_cases hj : j = a
      · simp [hj]
      · simp [hj, beq_eq_false_iff_ne.2 hj]
    · simp only [ne_eq, ha, not_false_eq_true, decide_true, if_true, List.lookup_cons, ih]
      by_cases hj : j = a
      · subst hj; simp [ha]
      · simp [beq_eq_false_iff_ne.2 hj]

theorem find_modify (m : UMap α) (k : Nat) (f : α → α) (j : Nat) :
    (m.modify k f).find? j = if j = k then (m.find? j).map f else m.find? j := by
  simp only [modify, find?]
  induction m.l with
  | nil => simp
  | cons p l ih =>
    obtain ⟨a, b⟩ := p
    rw [List.map_cons, List.lookup_cons]
    by_cases ha : a = k
    · subst ha
      simp only [if_true, List.lookup_cons, ih]
      by_cases hj : j = a
      · subst hj; simp
      · simp [hj, beq_eq_false_iff_ne.2 hj]
    · simp only [ha, if_false, List.lookup_cons, ih]
      by_cases hj : j = a
      · subst hj; simp [ha]
      · simp [beq_eq_false_iff_ne.2 hj]

theorem find_mapAll (m : UMap α) (f : α → α) (j : Nat) :
    (m.mapAll f).find? j = (m.find? j).map f := by
  simp only [mapAll, find?]
  induction m.l with
  | nil => simp
  | cons p l ih =>
    rw [List.map_cons, List.lookup_cons, List.lookup_cons, ih]
    by_cases hj : j = p.1
    · subst hj; simp
    · simp [beq_eq_false_iff_ne.2 hj]

theorem find_assign (m : UMap α) (k : Nat) (v : α) (j : Nat) :
    (m.assign k v).find? j = if j = k then some v else m.find? j := by
  rw [assign, find_modify]
  cases h : m.find? k with
  | none =>
    rw [find_insert m k v h]
    by_cases hj : j = k <;> simp [hj]
  | some w =>
    rw [insert_present m k v w h]
    by_cases hj : j = k
    · subst hj; simp [h]
    · simp [hj]

@[simp] theorem find_empty (k : Nat) : ({} : UMap α).find? k = none := rfl

theorem keys_insert (m : UMap α) (k : Nat) (v : α) : (m.insert k v).keys = Insert.insert k m.keys := by
  ext j
  rw [Finset.mem_insert, mem_keys, mem_keys]
  cases h : m.find? k with
  | none =>
    rw [find_insert m k v h]
    by_cases hj : j = k <;> simp [hj]
  | some w =>
    rw [insert_present m k v w h]
    constructor
    · exact Or.inr
    · rintro (rfl | h')
      · exact ⟨w, h⟩
      · exact h'

theorem keys_erase (m : UMap α) (k : Nat) : (m.erase k).keys = m.keys.erase k := by
  ext j
  rw [Finset.mem_erase, mem_keys, mem_keys, find_erase]
  by_cases hj : j = k <;> simp [hj]

theorem keys_modify (m : UMap α) (k : Nat) (f : α → α) : (m.modify k f).keys = m.keys := by
  ext j
  rw [mem_keys, mem_keys, find_modify]
  by_cases hj : j = k <;> simp [hj]

@[simp] theorem keys_empty : ({} : UMap α).keys = ∅ := rfl

end UMap
end Bm
