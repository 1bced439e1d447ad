import Verif.Spec.ByteCont

/-! # Byte containers: blocks -/

namespace Bm.ByteCont

theorem mem_l {α : Type} (m : UMap α) (k : Nat) (v : α) : (k, v) ∈ m.l ↔ m.find? k = some v := by
  obtain ⟨l, nd⟩ := m
  simp only [UMap.find?]
  induction l with
  | nil => simp
  | cons p l ih =>
    obtain ⟨a, b⟩ := p
    rw [List.map_cons, List.nodup_cons] at nd
    rw [List.lookup_cons, List.mem_cons]
    by_cases h : k = a
    · subst h
      have : (k, v) ∉ l := fun hm => nd.1 (List.mem_map.2 ⟨_, hm, rfl⟩)
      simp [this, eq_comm]
    · simp only [beq_eq_false_iff_ne.2 h, ← ih nd.2]
      simp [h]

theorem alignUp_one {n : Nat} (h : n < 2 ^ 64) : alignUp 1 n = n := by
  simp only [alignUp, Nat.sub_self, Nat.add_zero, Nat.mod_one, Nat.sub_zero]
  exact Nat.mod_eq_of_lt h

/-- The blocks held by containers: container, address, size. -/
abbrev Blocks := Nat × Nat × Nat → Prop

/-- The blocks `B` are all the storage in use, and they are where they should be. -/
structure InvB (w : World) (B : Blocks) : Prop where
  ar : ∀ i c, w.conts.find? i = some c →
    c.a.N = 16 ∧ c.a.al = 1 ∧ c.a.base ≤ c.a.ptr ∧ c.a.ptr ≤ c.a.base + 16
  obj : ∀ i j c d, w.conts.find? i = some c → w.conts.find? j = some d → i ≠ j →
    c.a.base + 56 ≤ d.a.base ∨ d.a.base + 56 ≤ c.a.base
  hobj : ∀ b ∈ w.heap, ∀ i c, w.conts.find? i = some c →
    b.1 + max b.2 1 ≤ c.a.base ∨ c.a.base + 56 ≤ b.1
  hp : w.heap.Pairwise fun b d => b.1 + max b.2 1 ≤ d.1 ∨ d.1 + max d.2 1 ≤ b.1
  inn : ∀ i p n, B (i, p, n) → 0 < n ∧ ∃ c, w.conts.find? i = some c ∧
    ((c.a.base ≤ p ∧ p + n ≤ c.a.ptr) ∨ (p, n) ∈ w.heap)
  dis : ∀ i p n j q m, B (i, p, n) → B (j, q, m) → (i, p, n) ≠ (j, q, m) → p + n ≤ q ∨ q + m ≤ p
  own : ∀ p n, (p, n) ∈ w.heap → ∃ i, B (i, p, n)

/-- The blocks of the vectors. -/
def blocksOf (w : World) : Blocks := fun x =>
  ∃ c, w.conts.find? x.1 = some c ∧ c.start = x.2.1 ∧ c.cap = x.2.2 ∧ 0 < c.cap

/-- The containers are in order. -/
structure Inv (w : World) : Prop where
  b : InvB w (blocksOf w)
  sz : ∀ i c, w.conts.find? i = some c → c.size ≤ c.cap ∧ c.cap < 2 ^ 63

theorem get_some {w : World} {i : Nat} {c : Cont} (h : w.conts.find? i = some c) : w.get i = .ok c := by
  simp [World.get, h]

theorem get_none {w : World} {i : Nat} (h : w.conts.find? i = none) : w.get i = .error .ub := by
  simp [World.get, h]

@[simp] theorem ok_bind {α β : Type} (a : α) (f : α → Except Fault β) : (Except.ok a >>= f) = f a := rfl
@[simp] theorem err_bind {α β : Type} (x : Fault) (f : α → Except Fault β) :
    ((Except.error x : Except Fault α) >>= f) = .error x := rfl
@[simp] theorem pure_ok {α : Type} (a : α) : (pure a : Except Fault α) = .ok a := rfl

@[simp] theorem find_setC (w : World) (i j : Nat) (c : Cont) :
    (w.setC i c).conts.find? j = if j = i then some c else w.conts.find? j := UMap.find_assign _ _ _ _

@[simp] theorem heap_setC (w : World) (i : Nat) (c : Cont) : (w.setC i c).heap = w.heap := rfl
@[simp] theorem mem_setC (w : World) (i : Nat) (c : Cont) : (w.setC i c).mem = w.mem := rfl

/-- Only arenas matter. -/
theorem InvB.congr {w w' : World} {B B' : Blocks} (h : InvB w B) (hh : w'.heap = w.heap)
    (hc : ∀ j, (w'.conts.find? j).map Cont.a = (w.conts.find? j).map Cont.a) (hB : ∀ x, B' x ↔ B x) :
    InvB w' B' := by
  have key : ∀ j d, w'.conts.find? j = some d → ∃ c, w.conts.find? j = some c ∧ c.a = d.a := by
    intro j d hd
    have := hc j
    rw [hd] at this
    cases hf : w.conts.find? j with
    | none => rw [hf] at this; cases this
    | some c => rw [hf] at this; exact ⟨c, rfl, (Option.some.inj this).symm⟩
  have key' : ∀ j d, w.conts.find? j = some d → ∃ c, w'.conts.find? j = some c ∧ c.a = d.a := by
    intro j d hd
    have := hc j
    rw [hd] at this
    cases hf : w'.conts.find? j with
    | none => rw [hf] at this; cases this
    | some c => rw [hf] at this; exact ⟨c, rfl, (Option.some.inj this)⟩
  constructor
  · intro i c hi
    obtain ⟨d, hd, e⟩ := key i c hi
    rw [← e]; exact h.ar i d hd
  · intro i j c d hi hj hne
    obtain ⟨c', hc', e⟩ := key i c hi
    obtain ⟨d', hd', e'⟩ := key j d hj
    rw [← e, ← e']; exact h.obj i j c' d' hc' hd' hne
  · intro b hb i c hi
    obtain ⟨d, hd, e⟩ := key i c hi
    rw [hh] at hb
    rw [← e]; exact h.hobj b hb i d hd
  · rw [hh]; exact h.hp
  · intro i p n hb
    obtain ⟨h0, c, hc, hx⟩ := h.inn i p n ((hB _).1 hb)
    obtain ⟨d, hd, e⟩ := key' i c hc
    refine ⟨h0, d, hd, ?_⟩
    rw [e, hh]; exact hx
  · intro i p n j q m hb hb' hne
    exact h.dis i p n j q m ((hB _).1 hb) ((hB _).1 hb') hne
  · intro p n hb
    rw [hh] at hb
    obtain ⟨i, hi⟩ := h.own p n hb
    exact ⟨i, (hB _).2 hi⟩

theorem free_heap {w : World} {a n : Nat} (h : w.free a n = true) (b : Nat × Nat) (hb : b ∈ w.heap) :
    a + max n 1 ≤ b.1 ∨ b.1 + max b.2 1 ≤ a := by
  simp only [World.free, Bool.and_eq_true, List.all_eq_true, apart, Bool.or_eq_true, decide_eq_true_eq] at h
  exact h.1 b hb

theorem free_obj {w : World} {a n : Nat} (h : w.free a n = true) (i : Nat) (c : Cont)
    (hc : w.conts.find? i = some c) : a + max n 1 ≤ c.a.base ∨ c.a.base + 56 ≤ a := by
  simp only [World.free, Bool.and_eq_true, List.all_eq_true, apart, Bool.or_eq_true, decide_eq_true_eq] at h
  exact h.2 (i, c) ((mem_l _ _ _).2 hc)

/-- A block is found: in the arena, or a new one. -/
theorem alloc_ok {w : World} {B : Blocks} (h : InvB w B) {i : Nat} {c : Cont} (hc : w.conts.find? i = some c)
    {n q : Nat} (hn : 0 < n) (he : w.alloc i n q ≠ .error .env) :
    n < 2 ^ 63 ∧ ∃ w' p a', w.alloc i n q = .ok (w', p) ∧ w'.mem = w.mem ∧
      (∀ j, w'.conts.find? j = if j = i then some { c with a := a' } else w.conts.find? j) ∧
      (∀ j r m, B (j, r, m) → p + n ≤ r ∨ r + m ≤ p) ∧
      InvB w' (fun x => B x ∨ x = (i, p, n)) := by
  obtain ⟨hN, hal, h1, h2⟩ := h.ar i c hc
  have hin : c.a.inBuf c.a.ptr = true := by
    simp only [Arena.inBuf, hN, Bool.and_eq_true, decide_eq_true_eq]; omega
  have hn3 : n < 2 ^ 63 := by
    refine Nat.lt_of_not_le fun hle => he ?_
    simp only [World.alloc, get_some hc, ok_bind, if_pos hle]
  refine ⟨hn3, ?_⟩
  have hn2 : n < 2 ^ 64 := by omega
  have hle : ¬2 ^ 63 ≤ n := Nat.not_le.2 hn3
  simp only [World.alloc, if_neg hle, get_some hc, ok_bind, Arena.allocate, hin, if_true, hal, alignUp_one hn2, hN] at he ⊢
  by_cases hr : n ≤ c.a.base + 16 - c.a.ptr
  · simp only [if_pos hr]
    have hdis : ∀ j r m, B (j, r, m) → c.a.ptr + n ≤ r ∨ r + m ≤ c.a.ptr := by
      intro j r m hb
      obtain ⟨h0, d, hd, hx⟩ := h.inn j r m hb
      rcases hx with hx | hx
      · by_cases hij : i = j
        · subst hij
          rw [hc] at hd; cases hd
          exact .inr hx.2
        · have a1 := h.obj i j c d hc hd hij
          have a2 := h.ar j d hd
          omega
      · have := h.hobj (r, m) hx i c hc
        simp only at this
        omega
    refine ⟨_, _, { N := 16, al := 1, base := c.a.base, ptr := c.a.ptr + n }, rfl, rfl, fun j => ?_, hdis, ?_⟩
    · simp
    · have key : ∀ j d, (w.setC i { c with a := { N := 16, al := 1, base := c.a.base, ptr := c.a.ptr + n } }).conts.find? j = some d →
          ∃ d', w.conts.find? j = some d' ∧ d.a.base = d'.a.base ∧
            (j ≠ i → d = d') ∧ (j = i → d.a.ptr = c.a.ptr + n ∧ d.a.N = 16 ∧ d.a.al = 1 ∧ d' = c) := by
        intro j d hd
        rw [find_setC] at hd
        by_cases hj : j = i
        · subst hj
          rw [if_pos rfl] at hd; cases hd
          exact ⟨c, hc, rfl, fun hne => absurd rfl hne, fun _ => ⟨rfl, rfl, rfl, rfl⟩⟩
        · rw [if_neg hj] at hd
          exact ⟨d, hd, rfl, fun _ => rfl, fun e => absurd e hj⟩
      constructor
      · intro j d hd
        obtain ⟨d', hd', hb, hne, heq⟩ := key j d hd
        by_cases hj : j = i
        · obtain ⟨e1, e2, e3, e4⟩ := heq hj
          subst e4
          rw [e1, e2, e3, hb]
          omega
        · rw [hne hj]; exact h.ar j d' hd'
      · intro j k d f hd hf hjk
        obtain ⟨d', hd', hb, _⟩ := key j d hd
        obtain ⟨f', hf', hb', _⟩ := key k f hf
        rw [hb, hb']; exact h.obj j k d' f' hd' hf' hjk
      · intro b hb' j d hd
        obtain ⟨d', hd', hb, _⟩ := key j d hd
        rw [hb]; exact h.hobj b hb' j d' hd'
      · exact h.hp
      · intro j p m hb
        rcases hb with hb | hb
        · obtain ⟨h0, d, hd, hx⟩ := h.inn j p m hb
          refine ⟨h0, ?_⟩
          rw [find_setC]
          by_cases hj : j = i
          · subst hj
            rw [hc] at hd; cases hd
            refine ⟨_, if_pos rfl, ?_⟩
            dsimp only
            rcases hx with hx | hx
            · left; omega
            · exact .inr hx
          · exact ⟨d, by rw [if_neg hj]; exact hd, hx⟩
        · cases hb
          refine ⟨hn, ?_⟩
          rw [find_setC]
          exact ⟨_, if_pos rfl, .inl ⟨h1, Nat.le_refl _⟩⟩
      · intro j p m k r l hb hb' hne
        rcases hb with hb | hb <;> rcases hb' with hb' | hb'
        · exact h.dis j p m k r l hb hb' hne
        · cases hb'; have := hdis j p m hb; omega
        · cases hb; exact hdis k r l hb'
        · exact absurd (hb.trans hb'.symm) hne
      · intro p m hb
        obtain ⟨j, hj⟩ := h.own p m hb
        exact ⟨j, .inl hj⟩
  · simp only [if_neg hr, World.opNew] at he ⊢
    by_cases hf : w.free q n = true
    · simp only [if_pos hf, ok_bind] at he ⊢
      have hm : max n 1 = n := by omega
      have hdis : ∀ j r m, B (j, r, m) → q + n ≤ r ∨ r + m ≤ q := by
        intro j r m hb
        obtain ⟨h0, d, hd, hx⟩ := h.inn j r m hb
        rcases hx with hx | hx
        · have a1 := free_obj hf j d hd
          have a2 := h.ar j d hd
          omega
        · have := free_heap hf (r, m) hx
          simp only at this
          omega
      refine ⟨_, _, c.a, rfl, rfl, fun j => ?_, hdis, ?_⟩
      · by_cases hj : j = i
        · subst hj; simp [hc]
        · simp [hj]
      · constructor
        · exact h.ar
        · exact h.obj
        · intro b hb j d hd
          rcases List.mem_cons.1 hb with hb | hb
          · subst hb; exact free_obj hf j d hd
          · exact h.hobj b hb j d hd
        · refine List.pairwise_cons.2 ⟨fun b hb => ?_, h.hp⟩
          exact free_heap hf b hb
        · intro j p m hb
          rcases hb with hb | hb
          · obtain ⟨h0, d, hd, hx⟩ := h.inn j p m hb
            refine ⟨h0, d, hd, ?_⟩
            rcases hx with hx | hx
            · exact .inl hx
            · exact .inr (List.mem_cons_of_mem _ hx)
          · cases hb
            exact ⟨hn, c, hc, .inr List.mem_cons_self⟩
        · intro j p m k r l hb hb' hne
          rcases hb with hb | hb <;> rcases hb' with hb' | hb'
          · exact h.dis j p m k r l hb hb' hne
          · cases hb'; have := hdis j p m hb; omega
          · cases hb; exact hdis k r l hb'
          · exact absurd (hb.trans hb'.symm) hne
        · intro p m hb
          rcases List.mem_cons.1 hb with hb | hb
          · cases hb; exact ⟨i, .inr rfl⟩
          · obtain ⟨j, hj⟩ := h.own p m hb
            exact ⟨j, .inl hj⟩
    · simp only [if_neg hf, err_bind, ne_eq, not_true_eq_false] at he

/-- A block is given back. -/
theorem dealloc_ok {w : World} {B : Blocks} (h : InvB w B) {i : Nat} {c : Cont} (hc : w.conts.find? i = some c)
    {p n : Nat} (hb : B (i, p, n)) (hn3 : n < 2 ^ 63) :
    ∃ w' a', w.dealloc i p n = .ok w' ∧ w'.mem = w.mem ∧
      (∀ j, w'.conts.find? j = if j = i then some { c with a := a' } else w.conts.find? j) ∧
      (∀ b, b ∈ w'.heap ↔ b ∈ w.heap ∧ b.1 ≠ p) ∧
      InvB w' (fun x => B x ∧ x ≠ (i, p, n)) := by
  obtain ⟨hN, hal, h1, h2⟩ := h.ar i c hc
  obtain ⟨hn, c', hc', hx⟩ := h.inn i p n hb
  have hn2 : n < 2 ^ 64 := by omega
  rw [hc] at hc'; cases hc'
  have hin : c.a.inBuf c.a.ptr = true := by
    simp only [Arena.inBuf, hN, Bool.and_eq_true, decide_eq_true_eq]; omega
  simp only [World.dealloc, get_some hc, ok_bind, Arena.deallocate, hin, if_true, hal, alignUp_one hn2]
  have hdis : ∀ j r m, B (j, r, m) → (j, r, m) ≠ (i, p, n) → p + n ≤ r ∨ r + m ≤ p := by
    intro j r m hb' hne
    have := h.dis j r m i p n hb' hb hne
    omega
  rcases hx with hx | hx
  · have hp : c.a.inBuf p = true := by
      simp only [Arena.inBuf, hN, Bool.and_eq_true, decide_eq_true_eq]; omega
    simp only [hp, if_true]
    have hnh : ∀ b ∈ w.heap, b.1 ≠ p := by
      intro b hb' e
      have := h.hobj b hb' i c hc
      omega
    refine ⟨_, (if p + n = c.a.ptr then { N := c.a.N, al := 1, base := c.a.base, ptr := p } else c.a), rfl, rfl, fun j => ?_, fun b => ?_, ?_⟩
    · simp
    · simp only [heap_setC]
      exact ⟨fun hb' => ⟨hb', hnh b hb'⟩, fun hb' => hb'.1⟩
    · generalize ha : (if p + n = c.a.ptr then { N := c.a.N, al := 1, base := c.a.base, ptr := p } else c.a : Arena) = a'
      have ha' : a'.base = c.a.base ∧ a'.N = 16 ∧ a'.al = 1 ∧
          ((p + n = c.a.ptr ∧ a'.ptr = p) ∨ (p + n ≠ c.a.ptr ∧ a'.ptr = c.a.ptr)) := by
        rw [← ha]
        split
        · exact ⟨rfl, hN, rfl, .inl ⟨‹_›, rfl⟩⟩
        · exact ⟨rfl, hN, hal, .inr ⟨‹_›, rfl⟩⟩
      obtain ⟨ab, aN, aal, ap⟩ := ha'
      have key : ∀ j d, (w.setC i { c with a := a' }).conts.find? j = some d →
          ∃ d', w.conts.find? j = some d' ∧ d.a.base = d'.a.base ∧
            (j ≠ i → d = d') ∧ (j = i → d.a = a' ∧ d' = c) := by
        intro j d hd
        rw [find_setC] at hd
        by_cases hj : j = i
        · subst hj
          rw [if_pos rfl] at hd; cases hd
          exact ⟨c, hc, ab, fun hne => absurd rfl hne, fun _ => ⟨rfl, rfl⟩⟩
        · rw [if_neg hj] at hd
          exact ⟨d, hd, rfl, fun _ => rfl, fun e => absurd e hj⟩
      constructor
      · intro j d hd
        obtain ⟨d', hd', hb, hne, heq⟩ := key j d hd
        by_cases hj : j = i
        · obtain ⟨e1, e4⟩ := heq hj
          rw [e1, aN, aal]
          omega
        · rw [hne hj]; exact h.ar j d' hd'
      · intro j k d f hd hf hjk
        obtain ⟨d', hd', hb, _⟩ := key j d hd
        obtain ⟨f', hf', hb', _⟩ := key k f hf
        rw [hb, hb']; exact h.obj j k d' f' hd' hf' hjk
      · intro b hb' j d hd
        obtain ⟨d', hd', hb, _⟩ := key j d hd
        rw [hb]; exact h.hobj b hb' j d' hd'
      · exact h.hp
      · intro j r m ⟨hb', hne⟩
        obtain ⟨h0, d, hd, hy⟩ := h.inn j r m hb'
        refine ⟨h0, ?_⟩
        rw [find_setC]
        by_cases hj : j = i
        · subst hj
          rw [hc] at hd; cases hd
          refine ⟨_, if_pos rfl, ?_⟩
          dsimp only
          rcases hy with hy | hy
          · left
            have := hdis j r m hb' hne
            omega
          · exact .inr hy
        · exact ⟨d, by rw [if_neg hj]; exact hd, hy⟩
      · intro j r m k q l hb' hb'' hne
        exact h.dis j r m k q l hb'.1 hb''.1 hne
      · intro r m hb'
        obtain ⟨j, hj⟩ := h.own r m hb'
        refine ⟨j, hj, fun e => ?_⟩
        cases e
        exact hnh _ hb' rfl
  · have hp : c.a.inBuf p = false := by
      have := h.hobj (p, n) hx i c hc
      simp only at this
      simp only [Arena.inBuf, hN, Bool.and_eq_false_iff, decide_eq_false_iff_not]
      omega
    simp only [hp, Bool.false_eq_true, if_false, World.opDelete]
    rw [if_pos (List.mem_map.2 ⟨(p, n), hx, rfl⟩)]
    refine ⟨_, c.a, rfl, rfl, fun j => ?_, fun b => ?_, ?_⟩
    · by_cases hj : j = i
      · subst hj; simp [hc]
      · simp [hj]
    · simp
    · constructor
      · exact h.ar
      · exact h.obj
      · intro b hb' j d hd
        exact h.hobj b (List.mem_filter.1 hb').1 j d hd
      · exact h.hp.filter _
      · intro j r m ⟨hb', hne⟩
        obtain ⟨h0, d, hd, hy⟩ := h.inn j r m hb'
        refine ⟨h0, d, hd, ?_⟩
        rcases hy with hy | hy
        · exact .inl hy
        · right
          refine List.mem_filter.2 ⟨hy, ?_⟩
          have := hdis j r m hb' hne
          simp only [ne_eq, decide_not, Bool.not_eq_eq_eq_not, Bool.not_true, decide_eq_false_iff_not]
          omega
      · intro j r m k q l hb' hb'' hne
        exact h.dis j r m k q l hb'.1 hb''.1 hne
      · intro r m hb'
        obtain ⟨hb1, hb2⟩ := List.mem_filter.1 hb'
        obtain ⟨j, hj⟩ := h.own r m hb1
        refine ⟨j, hj, fun e => ?_⟩
        cases e
        simp at hb2

theorem valid_of {w : World} {B : Blocks} (h : InvB w B) {i p n a m : Nat} (hb : B (i, p, n)) (h1 : p ≤ a)
    (h2 : a + m ≤ p + n) : w.valid a m = true := by
  obtain ⟨_, c, hc, hx⟩ := h.inn i p n hb
  have ha := h.ar i c hc
  simp only [World.valid, Bool.or_eq_true, List.any_eq_true, Bool.and_eq_true, decide_eq_true_eq]
  rcases hx with hx | hx
  · refine .inr ⟨(i, c), (mem_l _ _ _).2 hc, ?_⟩
    dsimp only
    omega
  · exact .inl (.inr ⟨(p, n), hx, h1, h2⟩)

theorem valid_zero (w : World) (a : Nat) : w.valid a 0 = true := by simp [World.valid]

end Bm.ByteCont
