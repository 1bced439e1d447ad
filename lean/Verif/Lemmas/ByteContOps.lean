import Verif.Lemmas.ByteCont

/-! # Byte containers: operations -/

namespace Bm.ByteCont

theorem bytes_some {w : World} {i : Nat} {c : Cont} (h : w.conts.find? i = some c) :
    w.bytes i = some ((List.range c.size).map fun k => w.mem (c.start + k)) := by
  simp [World.bytes, h]

theorem bytes_none {w : World} {i : Nat} : w.bytes i = none ↔ w.conts.find? i = none := by
  simp [World.bytes]

theorem bytes_congr {w w' : World} {i : Nat} {c c' : Cont} (h : w.conts.find? i = some c)
    (h' : w'.conts.find? i = some c') (hs : c'.size = c.size)
    (hm : ∀ k, k < c.size → w'.mem (c'.start + k) = w.mem (c.start + k)) : w'.bytes i = w.bytes i := by
  rw [bytes_some h, bytes_some h', hs]
  refine congrArg some (List.map_congr_left fun k hk => hm k (List.mem_range.1 hk))

theorem Inv.block {w : World} (_ : Inv w) {i : Nat} {c : Cont} (hc : w.conts.find? i = some c) (h0 : 0 < c.cap) :
    blocksOf w (i, c.start, c.cap) := ⟨c, hc, rfl, rfl, h0⟩

theorem Inv.valid {w : World} (h : Inv w) {i : Nat} {c : Cont} (hc : w.conts.find? i = some c) {a m : Nat}
    (h1 : c.start ≤ a) (h2 : a + m ≤ c.start + c.cap) : w.valid a m = true := by
  by_cases h0 : 0 < c.cap
  · exact valid_of h.b (h.block hc h0) h1 h2
  · have : m = 0 := by omega
    subst this
    exact valid_zero w a

/-- Storage of different containers. -/
theorem Inv.apart {w : World} (h : Inv w) {i j : Nat} {c d : Cont} (hc : w.conts.find? i = some c)
    (hd : w.conts.find? j = some d) (hij : i ≠ j) (h1 : 0 < c.cap) (h2 : 0 < d.cap) :
    c.start + c.cap ≤ d.start ∨ d.start + d.cap ≤ c.start :=
  h.b.dis _ _ _ _ _ _ (h.block hc h1) (h.block hd h2) (fun e => hij (congrArg Prod.fst e))

/-- A change of the bytes of one container. -/
theorem edit_ok {w w' : World} (h : Inv w) {i : Nat} {c : Cont} (hc : w.conts.find? i = some c) {s : Nat}
    (hs : s ≤ c.cap) (hh : w'.heap = w.heap)
    (hf : ∀ j, w'.conts.find? j = if j = i then some { c with size := s } else w.conts.find? j)
    (hm : ∀ a, (a < c.start ∨ c.start + c.cap ≤ a) → w'.mem a = w.mem a) :
    Inv w' ∧ ∀ j, j ≠ i → w'.bytes j = w.bytes j := by
  refine ⟨⟨?_, ?_⟩, ?_⟩
  · refine h.b.congr hh ?_ ?_
    · intro j
      rw [hf]
      by_cases hj : j = i
      · subst hj; simp [hc]
      · simp [hj]
    · intro ⟨j, p, n⟩
      simp only [blocksOf, hf]
      by_cases hj : j = i
      · subst hj
        simp only [if_pos, hc, Option.some.injEq, exists_eq_left']
      · simp only [if_neg hj]
  · intro j d hd
    rw [hf] at hd
    by_cases hj : j = i
    · subst hj
      rw [if_pos rfl] at hd; cases hd
      exact ⟨hs, (h.sz j c hc).2⟩
    · rw [if_neg hj] at hd
      exact h.sz j d hd
  · intro j hj
    cases hd : w.conts.find? j with
    | none =>
      have : w'.conts.find? j = none := by rw [hf, if_neg hj, hd]
      rw [bytes_none.2 hd, bytes_none.2 this]
    | some d =>
      refine bytes_congr hd (by rw [hf, if_neg hj, hd]) rfl fun k hk => hm _ ?_
      have h1 := (h.sz j d hd).1
      by_cases h0 : 0 < c.cap
      · have := h.apart hc hd (Ne.symm hj) h0 (by omega)
        omega
      · omega

/-- The result of a step of which the room is all that matters. -/
structure Roomy (w : World) (i : Nat) (c : Cont) (w' : World) (c' : Cont) : Prop where
  inv : Inv w'
  find : w'.conts.find? i = some c'
  size : c'.size = c.size
  others : ∀ j, j ≠ i → w'.conts.find? j = w.conts.find? j
  bytes : ∀ j, w'.bytes j = w.bytes j

theorem grow_ok {w : World} (h : Inv w) {i : Nat} {c : Cont} (hc : w.conts.find? i = some c) {n q : Nat}
    (hn : c.cap < n) (he : w.grow i n q ≠ .error .env) :
    ∃ w' c', w.grow i n q = .ok w' ∧ Roomy w i c w' c' ∧ c'.cap = n := by
  have hea : w.alloc i n q ≠ .error .env := by
    intro e
    apply he
    simp only [World.grow, get_some hc, ok_bind, e, err_bind]
  obtain ⟨hn3, w1, p, a1, e1, m1, f1, d1, b1⟩ := alloc_ok h.b hc (by omega) hea
  obtain ⟨hsz, hcap⟩ := h.sz i c hc
  have v1 : w1.valid p c.size = true := valid_of b1 (i := i) (p := p) (n := n) (.inr rfl) (Nat.le_refl _) (by omega)
  have v2 : w1.valid c.start c.size = true := by
    by_cases h0 : 0 < c.cap
    · exact valid_of b1 (.inl (h.block hc h0)) (Nat.le_refl _) (by omega)
    · have : c.size = 0 := by omega
      rw [this]; exact valid_zero _ _
  simp only [World.grow, get_some hc, ok_bind, e1, World.move, World.release, v1, v2, Bool.and_true, if_true]
  generalize hw2 : ({ w1 with mem := fun a => if p ≤ a ∧ a < p + c.size then w1.mem (c.start + (a - p)) else w1.mem a } : World) = w2
  have c2 : w2.conts = w1.conts := by rw [← hw2]
  have hp2 : w2.heap = w1.heap := by rw [← hw2]
  have mm2 : ∀ a, w2.mem a = if p ≤ a ∧ a < p + c.size then w.mem (c.start + (a - p)) else w.mem a := by
    intro a; rw [← hw2, m1]
  have b2 : InvB w2 (fun x => blocksOf w x ∨ x = (i, p, n)) :=
    b1.congr hp2 (fun j => by rw [c2]) (fun _ => Iff.rfl)
  have f2 : w2.conts.find? i = some { c with a := a1 } := by rw [c2, f1, if_pos rfl]
  -- the bytes, whatever happens to the old block
  have fin : ∀ (w3 : World) (c3 : Cont), w3.mem = w2.mem → w3.conts.find? i = some c3 → c3.size = c.size →
      (∀ j, j ≠ i → w3.conts.find? j = w.conts.find? j) → c3.start = p →
      ∀ j, w3.bytes j = w.bytes j := by
    intro w3 c3 hm hi3 hs3 ho hst j
    by_cases hj : j = i
    · subst hj
      refine bytes_congr hc hi3 hs3 fun k hk => ?_
      rw [hm, mm2, hst, if_pos (by omega)]
      congr 1; omega
    · cases hd : w.conts.find? j with
      | none =>
        have : w3.conts.find? j = none := by rw [ho j hj, hd]
        rw [bytes_none.2 hd, bytes_none.2 this]
      | some d =>
        refine bytes_congr hd (by rw [ho j hj, hd]) rfl fun k hk => ?_
        rw [hm, mm2, if_neg]
        have h1 := (h.sz j d hd).1
        have := d1 j d.start d.cap (h.block hd (by omega))
        omega
  by_cases h0 : c.cap = 0
  · simp only [if_pos h0, ok_bind, get_some f2, pure_ok]
    refine ⟨_, { c with a := a1, start := p, cap := n }, rfl, ⟨⟨?_, ?_⟩, ?_, rfl, ?_, ?_⟩, rfl⟩
    · refine b2.congr rfl ?_ ?_
      · intro j
        rw [find_setC]
        by_cases hj : j = i
        · subst hj; simp [f2]
        · simp [hj]
      · intro ⟨j, r, m⟩
        simp only [blocksOf, find_setC, c2, f1]
        by_cases hj : j = i
        · subst hj
          simp only [if_true, Option.some.injEq, exists_eq_left', hc, Prod.mk.injEq, true_and]
          constructor
          · rintro ⟨x, y, z⟩; right; exact ⟨x.symm, y.symm⟩
          · rintro (⟨x, y, z⟩ | ⟨x, y⟩)
            · omega
            · exact ⟨x.symm, y.symm, by omega⟩
        · simp only [Prod.mk.injEq, hj, false_and, or_false, if_false]
    · intro j d hd
      rw [find_setC] at hd
      by_cases hj : j = i
      · subst hj
        rw [if_pos rfl] at hd; cases hd
        dsimp only; omega
      · rw [if_neg hj, c2, f1, if_neg hj] at hd
        exact h.sz j d hd
    · rw [find_setC, if_pos rfl]
    · intro j hj
      rw [find_setC, if_neg hj, c2, f1, if_neg hj]
    · refine fin _ { c with a := a1, start := p, cap := n } rfl (by rw [find_setC, if_pos rfl]) rfl ?_ rfl
      intro j hj
      rw [find_setC, if_neg hj, c2, f1, if_neg hj]
  · obtain ⟨w3, a3, e3, m3, f3, h3, b3⟩ := dealloc_ok b2 f2 (p := c.start) (n := c.cap)
      (.inl (h.block hc (by omega))) hcap
    have f3i : w3.conts.find? i = some { c with a := a3 } := by rw [f3, if_pos rfl]
    simp only [if_neg h0, e3, ok_bind, get_some f3i, pure_ok]
    have ho : ∀ j, j ≠ i → w3.conts.find? j = w.conts.find? j := by
      intro j hj
      rw [f3, if_neg hj, c2, f1, if_neg hj]
    refine ⟨_, { c with a := a3, start := p, cap := n }, rfl, ⟨⟨?_, ?_⟩, ?_, rfl, ?_, ?_⟩, rfl⟩
    · refine b3.congr rfl ?_ ?_
      · intro j
        rw [find_setC]
        by_cases hj : j = i
        · subst hj; simp [f3i]
        · simp [hj]
      · intro ⟨j, r, m⟩
        simp only [blocksOf, find_setC]
        by_cases hj : j = i
        · subst hj
          simp only [if_true, Option.some.injEq, exists_eq_left', hc, Prod.mk.injEq, true_and, ne_eq]
          constructor
          · rintro ⟨x, y, z⟩
            refine ⟨.inr ⟨x.symm, y.symm⟩, fun hx => ?_⟩
            omega
          · rintro ⟨⟨x, y, z⟩ | ⟨x, y⟩, hne⟩
            · exact absurd ⟨x.symm, y.symm⟩ hne
            · exact ⟨x.symm, y.symm, by omega⟩
        · simp only [ho j hj, Prod.mk.injEq, hj, false_and, or_false, ne_eq, not_false_eq_true, and_true, if_false]
    · intro j d hd
      rw [find_setC] at hd
      by_cases hj : j = i
      · subst hj
        rw [if_pos rfl] at hd; cases hd
        dsimp only; omega
      · rw [if_neg hj, ho j hj] at hd
        exact h.sz j d hd
    · rw [find_setC, if_pos rfl]
    · intro j hj
      rw [find_setC, if_neg hj, ho j hj]
    · refine fin _ { c with a := a3, start := p, cap := n } (by rw [mem_setC, m3]) (by rw [find_setC, if_pos rfl]) rfl ?_ rfl
      intro j hj
      rw [find_setC, if_neg hj, ho j hj]

theorem room_ok {w : World} (h : Inv w) {i : Nat} {c : Cont} (hc : w.conts.find? i = some c) {n : Nat} {e : Env}
    (he : w.room i n e ≠ .error .env) :
    ∃ w' c', w.room i n e = .ok w' ∧ Roomy w i c w' c' ∧ n ≤ c'.cap ∧ (n ≤ c.cap → w' = w) := by
  simp only [World.room, get_some hc, ok_bind] at he ⊢
  by_cases hn : n ≤ c.cap
  · simp only [if_pos hn, pure_ok]
    exact ⟨w, c, rfl, ⟨h, hc, rfl, fun _ _ => rfl, fun _ => rfl⟩, hn, fun _ => rfl⟩
  · simp only [if_neg hn] at he ⊢
    obtain ⟨w', c', e1, r, hcap⟩ := grow_ok h hc (by omega) he
    exact ⟨w', c', e1, r, by omega, fun hx => absurd hx hn⟩

theorem reserve_ok {w : World} (h : Inv w) {i : Nat} {c : Cont} (hc : w.conts.find? i = some c) {n : Nat} {e : Env}
    (he : w.reserve i n e ≠ .error .env) :
    ∃ w' c', w.reserve i n e = .ok w' ∧ Roomy w i c w' c' ∧ n ≤ c'.cap ∧ (n ≤ c.cap → w' = w) := by
  simp only [World.reserve, get_some hc, ok_bind] at he ⊢
  by_cases hn : n ≤ c.cap
  · simp only [if_pos hn, pure_ok]
    exact ⟨w, c, rfl, ⟨h, hc, rfl, fun _ _ => rfl, fun _ => rfl⟩, hn, fun _ => rfl⟩
  · simp only [if_neg hn] at he ⊢
    obtain ⟨w', c', e1, r, hcap⟩ := grow_ok h hc (by omega) he
    exact ⟨w', c', e1, r, by omega, fun hx => absurd hx hn⟩

theorem srcLen_some {w : World} {i : Nat} {s : Src} {bs : Bytes} (h : Spec.src w.bytes i s = some bs) :
    w.srcLen i s = .ok bs.length := by
  cases s with
  | raw b => simp only [Spec.src, Option.some.injEq] at h; simp [World.srcLen, h]
  | cont j =>
    simp only [Spec.src] at h
    by_cases hj : j = i
    · simp [hj] at h
    · rw [if_neg hj] at h
      cases hd : w.conts.find? j with
      | none => rw [bytes_none.2 hd] at h; cases h
      | some d =>
        rw [bytes_some hd] at h
        simp [World.srcLen, hj, get_some hd, ← Option.some.inj h]

theorem srcLen_none {w : World} {i : Nat} {s : Src} (h : Spec.src w.bytes i s = none) :
    w.srcLen i s = .error .ub := by
  cases s with
  | raw b => cases h
  | cont j =>
    simp only [Spec.src] at h
    by_cases hj : j = i
    · simp [World.srcLen, hj]
    · rw [if_neg hj] at h
      simp [World.srcLen, hj, get_none (bytes_none.1 h)]

theorem fill_ok {w : World} (h : Inv w) {i : Nat} {s : Src} {bs : Bytes} (hs : Spec.src w.bytes i s = some bs)
    {dst : Nat} (hv : w.valid dst bs.length = true) :
    w.fill dst s = .ok { w with mem := fun a => if dst ≤ a ∧ a < dst + bs.length then bs.getD (a - dst) 0 else w.mem a } := by
  cases s with
  | raw b => simp only [Spec.src, Option.some.injEq] at hs; subst hs; simp [World.fill, World.put, hv]
  | cont j =>
    simp only [Spec.src] at hs
    by_cases hj : j = i
    · simp [hj] at hs
    · rw [if_neg hj] at hs
      cases hd : w.conts.find? j with
      | none => rw [bytes_none.2 hd] at hs; cases hs
      | some d =>
        rw [bytes_some hd] at hs
        have hs := Option.some.inj hs
        have hl : bs.length = d.size := by rw [← hs]; simp
        rw [hl] at hv
        have hv2 : w.valid d.start d.size = true := h.valid hd (Nat.le_refl _) (by have := (h.sz j d hd).1; omega)
        simp only [World.fill, get_some hd, ok_bind, World.move, hv, hv2, Bool.and_self, if_true, hl]
        congr 2
        funext a
        by_cases ha : dst ≤ a ∧ a < dst + d.size
        · rw [if_pos ha, if_pos ha, ← hs, List.getD_eq_getElem?_getD, List.getElem?_map, List.getElem?_range (by omega)]
          rfl
        · rw [if_neg ha, if_neg ha]

/-- The outcome of an operation is what the users expect. -/
def Refines (r : Except Fault World) (s : Except Fault Spec.St) : Prop :=
  match r, s with
  | .ok w, .ok t => Inv w ∧ w.bytes = t
  | .error f, .error g => f = g
  | _, _ => False

theorem setSize_some {w : World} {i n : Nat} {c : Cont} (hc : w.conts.find? i = some c) :
    w.setSize i n = .ok (w.setC i { c with size := n }) := by
  simp [World.setSize, get_some hc]

theorem setSize_mem {w : World} {i n : Nat} {c : Cont} (hc : w.conts.find? i = some c) (m : Nat → UInt8) :
    World.setSize { w with mem := m } i n = .ok (World.setC { w with mem := m } i { c with size := n }) :=
  setSize_some (w := { w with mem := m }) hc

theorem insert_ok {w : World} (h : Inv w) {i pos : Nat} {s : Src} {e : Env} {l bs : Bytes}
    (hl : w.bytes i = some l) (hs : Spec.src w.bytes i s = some bs) (hp : pos ≤ l.length)
    (he : w.insert i pos s e ≠ .error .env) :
    Refines (w.insert i pos s e) (.ok (Spec.upd w.bytes i (some (Spec.splice l pos bs)))) := by
  cases hc : w.conts.find? i with
  | none => rw [bytes_none.2 hc] at hl; cases hl
  | some c =>
    rw [bytes_some hc] at hl
    have hl := Option.some.inj hl
    have hlen : l.length = c.size := by rw [← hl]; simp
    have hpos : ¬c.size < pos := by omega
    simp only [World.insert, srcLen_some hs, get_some hc, ok_bind, if_neg hpos] at he ⊢
    have her : w.room i (c.size + bs.length) e ≠ .error .env := by
      intro x; rw [x] at he; exact he rfl
    obtain ⟨w1, c1, e1, r, hcap, _⟩ := room_ok h hc her
    have hsz := r.size
    rw [e1] at he
    simp only [e1, ok_bind, get_some r.find]
    have v1 : w1.valid (c1.start + pos + bs.length) (c1.size - pos) = true :=
      r.inv.valid r.find (by omega) (by omega)
    have v2 : w1.valid (c1.start + pos) (c1.size - pos) = true :=
      r.inv.valid r.find (by omega) (by omega)
    simp only [World.move, v1, v2, Bool.and_self, if_true, ok_bind]
    generalize hw2 : ({ w1 with mem := fun a => if c1.start + pos + bs.length ≤ a ∧ a < c1.start + pos + bs.length + (c1.size - pos) then w1.mem (c1.start + pos + (a - (c1.start + pos + bs.length))) else w1.mem a } : World) = w2
    have c2 : w2.conts = w1.conts := by rw [← hw2]
    have h2 : w2.heap = w1.heap := by rw [← hw2]
    have m2 : ∀ a, w2.mem a = if c1.start + pos + bs.length ≤ a ∧ a < c1.start + pos + bs.length + (c1.size - pos) then w1.mem (c1.start + pos + (a - (c1.start + pos + bs.length))) else w1.mem a := by
      intro a; rw [← hw2]
    obtain ⟨i2, o2⟩ := edit_ok r.inv r.find (s := c1.size) (w' := w2) (r.inv.sz i c1 r.find).1 h2
      (fun j => by
        rw [c2]
        by_cases hj : j = i
        · subst hj; rw [if_pos rfl, r.find]
        · rw [if_neg hj])
      (fun a ha => by rw [m2, if_neg]; omega)
    have s2 : Spec.src w2.bytes i s = some bs := by
      rw [← hs]
      cases s with
      | raw _ => rfl
      | cont j =>
        simp only [Spec.src]
        by_cases hj : j = i
        · simp [hj]
        · rw [if_neg hj, if_neg hj, o2 j hj, r.bytes j]
    have f2 : w2.conts.find? i = some c1 := by rw [c2, r.find]
    rw [fill_ok i2 s2 (i2.valid f2 (by omega) (by omega))]
    simp only [ok_bind]
    rw [setSize_mem f2]
    obtain ⟨i3, o3⟩ := edit_ok i2 f2 (s := c1.size + bs.length)
      (w' := World.setC { w2 with mem := fun a => if c1.start + pos ≤ a ∧ a < c1.start + pos + bs.length then bs.getD (a - (c1.start + pos)) 0 else w2.mem a } i { c1 with size := c1.size + bs.length })
      (by omega) rfl (fun j => find_setC _ _ _ _)
      (fun a ha => by rw [mem_setC]; dsimp only; rw [if_neg (by omega)])
    refine ⟨i3, funext fun j => ?_⟩
    by_cases hj : j = i
    · subst hj
      rw [bytes_some (find_setC _ _ _ _ |>.trans (if_pos rfl))]
      simp only [Spec.upd, if_true]
      have old : ∀ k, k < c.size → w1.mem (c1.start + k) = l.getD k 0 := by
        intro k hk
        have hb := r.bytes j
        rw [bytes_some r.find, bytes_some hc, hl] at hb
        have hb := Option.some.inj hb
        rw [← hb, List.getD_eq_getElem?_getD, List.getElem?_map, List.getElem?_range (by omega)]
        rfl
      congr 1
      refine List.ext_getElem ?_ fun k hk hk' => ?_
      · simp only [List.length_map, List.length_range, Spec.splice, List.length_append, List.length_take,
          List.length_drop]
        omega
      · simp only [List.length_map, List.length_range] at hk
        rw [List.getElem_map, List.getElem_range]
        simp only [mem_setC, Spec.splice]
        by_cases h1 : k < pos
        · rw [if_neg (by omega), m2, if_neg (by omega), old k (by omega),
            List.getElem_append_left (by simp only [List.length_append, List.length_take]; omega),
            List.getElem_append_left (by simp only [List.length_take]; omega), List.getElem_take,
            List.getD_eq_getElem?_getD, List.getElem?_eq_getElem (by omega)]
          rfl
        · by_cases h2 : k < pos + bs.length
          · rw [if_pos (by omega),
              List.getElem_append_left (by simp only [List.length_append, List.length_take]; omega),
              List.getElem_append_right (by simp only [List.length_take]; omega),
              List.getD_eq_getElem?_getD, List.getElem?_eq_getElem (by omega)]
            simp only [Option.getD_some, List.length_take]
            congr 1
            omega
          · rw [if_neg (by omega), m2, if_pos (by omega),
              show c1.start + pos + (c1.start + k - (c1.start + pos + bs.length)) = c1.start + (k - bs.length) by omega,
              old _ (by omega),
              List.getElem_append_right (by simp only [List.length_append, List.length_take]; omega),
              List.getElem_drop, List.getD_eq_getElem?_getD, List.getElem?_eq_getElem (by omega)]
            simp only [Option.getD_some, List.length_append, List.length_take]
            congr 1
            omega
    · rw [o3 j hj, o2 j hj, r.bytes j]
      simp [Spec.upd, hj]

theorem assign_ok {w : World} (h : Inv w) {i : Nat} {s : Src} {e : Env} {bs : Bytes} {c : Cont}
    (hc : w.conts.find? i = some c) (hs : Spec.src w.bytes i s = some bs)
    (he : w.assign i s e ≠ .error .env) :
    Refines (w.assign i s e) (.ok (Spec.upd w.bytes i (some bs))) := by
  simp only [World.assign, srcLen_some hs, setSize_some hc, ok_bind] at he ⊢
  obtain ⟨i0, o0⟩ := edit_ok h hc (s := 0) (w' := w.setC i { c with size := 0 }) (by omega) rfl
    (fun j => find_setC _ _ _ _) (fun a _ => rfl)
  have f0 : (w.setC i { c with size := 0 }).conts.find? i = some { c with size := 0 } := by rw [find_setC, if_pos rfl]
  have her : (w.setC i { c with size := 0 }).reserve i bs.length e ≠ .error .env := by
    intro x; rw [x] at he; exact he rfl
  obtain ⟨w1, c1, e1, r, hcap, _⟩ := reserve_ok i0 f0 her
  have s1 : Spec.src w1.bytes i s = some bs := by
    rw [← hs]
    cases s with
    | raw _ => rfl
    | cont j =>
      simp only [Spec.src]
      by_cases hj : j = i
      · simp [hj]
      · rw [if_neg hj, if_neg hj, r.bytes j, o0 j hj]
  rw [e1]
  simp only [ok_bind, get_some r.find]
  rw [fill_ok r.inv s1 (r.inv.valid r.find (Nat.le_refl _) (by omega))]
  simp only [ok_bind]
  rw [setSize_mem r.find]
  obtain ⟨i3, o3⟩ := edit_ok r.inv r.find (s := bs.length)
    (w' := World.setC { w1 with mem := fun a => if c1.start ≤ a ∧ a < c1.start + bs.length then bs.getD (a - c1.start) 0 else w1.mem a } i { c1 with size := bs.length })
    (by omega) rfl (fun j => find_setC _ _ _ _)
    (fun a ha => by rw [mem_setC]; dsimp only; rw [if_neg (by omega)])
  refine ⟨i3, funext fun j => ?_⟩
  by_cases hj : j = i
  · subst hj
    rw [bytes_some (find_setC _ _ _ _ |>.trans (if_pos rfl))]
    simp only [Spec.upd, if_true]
    congr 1
    refine List.ext_getElem (by simp) fun k hk hk' => ?_
    rw [List.getElem_map, List.getElem_range]
    simp only [mem_setC]
    rw [if_pos (by omega), List.getD_eq_getElem?_getD, show c1.start + k - c1.start = k by omega,
      List.getElem?_eq_getElem hk']
    rfl
  · rw [o3 j hj, r.bytes j, o0 j hj]
    simp [Spec.upd, hj]

theorem maskLoop_ok (a b n : Nat) : ∀ (w : World) (k : Nat),
    (∀ x, k ≤ x → x < k + n → w.valid (a + x) 1 = true ∧ w.valid (b + x) 1 = true) →
    (a = b ∨ a + k + n ≤ b + k ∨ b + k + n ≤ a + k) →
    w.maskLoop a b k n = .ok { w with mem := fun x => if a + k ≤ x ∧ x < a + k + n then w.mem x &&& w.mem (b + (x - a)) else w.mem x } := by
  induction n with
  | zero =>
    intro w k _ _
    simp only [World.maskLoop]
    have : w.mem = fun x => if a + k ≤ x ∧ x < a + k + 0 then w.mem x &&& w.mem (b + (x - a)) else w.mem x := by
      funext x
      rw [if_neg (by omega)]
    rw [← this]
  | succ n ih =>
    intro w k hv hab
    obtain ⟨v1, v2⟩ := hv k (Nat.le_refl _) (by omega)
    have v1' : w.valid (a + k) (List.length [w.mem (a + k) &&& w.mem (b + k)]) = true := v1
    simp only [World.maskLoop, v2, if_true, World.put, v1', ok_bind]
    generalize hw : ({ w with mem := fun x => if a + k ≤ x ∧ x < a + k + List.length [w.mem (a + k) &&& w.mem (b + k)] then
      [w.mem (a + k) &&& w.mem (b + k)].getD (x - (a + k)) 0 else w.mem x } : World) = w'
    have hvv : ∀ x, w'.valid x 1 = w.valid x 1 := fun x => by rw [← hw]; rfl
    have hm : ∀ x, w'.mem x = if x = a + k then w.mem (a + k) &&& w.mem (b + k) else w.mem x := by
      intro x
      rw [← hw]
      by_cases hx : x = a + k
      · subst hx; simp
      · simp only [List.length_cons, List.length_nil, if_neg hx]
        rw [if_neg (by omega)]
    have hh : w'.heap = w.heap := by rw [← hw]
    have hcc : w'.conts = w.conts := by rw [← hw]
    rw [ih w' (k + 1) (fun x h1 h2 => by rw [hvv, hvv]; exact hv x (by omega) (by omega)) (by omega), hh, hcc]
    congr 2
    funext x
    simp only [hm]
    by_cases hx : x = a + k
    · subst hx
      rw [if_neg (by omega), if_pos rfl, if_pos (by omega), Nat.add_sub_cancel_left]
    · by_cases h1 : a + (k + 1) ≤ x ∧ x < a + (k + 1) + n
      · rw [if_pos h1, if_neg hx, if_neg (by omega), if_pos (by omega)]
      · rw [if_neg h1, if_neg hx, if_neg (by omega)]

end Bm.ByteCont
