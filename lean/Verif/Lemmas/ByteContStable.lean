import Verif.Lemmas.ByteContMore

/-! # Byte containers: storage which does not move; clients of an arena -/

namespace Bm.ByteCont

theorem bind_ok {α β : Type} {x : Except Fault α} {f : α → Except Fault β} {b : β} (h : (x >>= f) = .ok b) :
    ∃ a, x = .ok a ∧ f a = .ok b := by
  cases x with
  | error g => rw [err_bind] at h; cases h
  | ok a => exact ⟨a, rfl, h⟩

theorem get_ok {w : World} {i : Nat} {c : Cont} (h : w.get i = .ok c) : w.conts.find? i = some c := by
  cases hx : w.conts.find? i with
  | none => rw [get_none hx] at h; cases h
  | some d => rw [get_some hx] at h; cases h; rfl

theorem move_conts {w w' : World} {a b n : Nat} (h : w.move a b n = .ok w') : w'.conts = w.conts := by
  simp only [World.move] at h
  split at h
  · cases h; rfl
  · cases h

theorem put_conts {w w' : World} {a : Nat} {bs : Bytes} (h : w.put a bs = .ok w') : w'.conts = w.conts := by
  simp only [World.put] at h
  split at h
  · cases h; rfl
  · cases h

theorem fill_conts {w w' : World} {a : Nat} {s : Src} (h : w.fill a s = .ok w') : w'.conts = w.conts := by
  cases s with
  | raw bs => exact put_conts h
  | cont j =>
    obtain ⟨c, _, h⟩ := bind_ok h
    exact move_conts h

theorem mask_conts (a b n : Nat) : ∀ {w w' : World} {k : Nat}, w.maskLoop a b k n = .ok w' → w'.conts = w.conts := by
  induction n with
  | zero => intro w w' k h; cases h; rfl
  | succ n ih =>
    intro w w' k h
    simp only [World.maskLoop] at h
    split at h
    · obtain ⟨w1, h1, h2⟩ := bind_ok h
      rw [ih h2, put_conts h1]
    · cases h

theorem setSize_find {w w' : World} {i n : Nat} (h : w.setSize i n = .ok w') :
    ∃ c, w.conts.find? i = some c ∧ w' = w.setC i { c with size := n } := by
  obtain ⟨c, hc, h⟩ := bind_ok h
  cases h
  exact ⟨c, get_ok hc, rfl⟩

theorem insert_find {w w' : World} (hw : Inv w) {k pos : Nat} {s : Src} {e : Env} (h : w.insert k pos s e = .ok w')
    {i : Nat} {c c' : Cont} (hc : w.conts.find? i = some c) (hc' : w'.conts.find? i = some c')
    (hs : c'.size ≤ c.cap) : c'.start = c.start ∧ c'.cap = c.cap := by
  obtain ⟨n, _, h⟩ := bind_ok h
  obtain ⟨d, hd, h⟩ := bind_ok h
  replace hd := get_ok hd
  split at h
  · cases h
  obtain ⟨w1, h1, h⟩ := bind_ok h
  obtain ⟨w1', c1, h1', r, _, hsame⟩ := room_ok hw hd (by rw [h1]; exact fun x => by cases x)
  rw [h1] at h1'; cases h1'
  obtain ⟨c1', hc1, h⟩ := bind_ok h
  replace hc1 := get_ok hc1
  rw [r.find] at hc1; cases hc1
  obtain ⟨w2, h2, h⟩ := bind_ok h
  obtain ⟨w3, h3, h⟩ := bind_ok h
  obtain ⟨c3, hc3, rfl⟩ := setSize_find h
  rw [fill_conts h3, move_conts h2, r.find] at hc3; cases hc3
  rw [find_setC] at hc'
  by_cases hi : i = k
  · subst hi
    rw [hc] at hd; cases hd
    rw [if_pos rfl] at hc'; cases hc'
    have hsz := r.size
    simp only at hs ⊢
    have := hsame (by omega)
    subst this
    have := r.find
    rw [hc] at this; cases this
    exact ⟨rfl, rfl⟩
  · rw [if_neg hi, fill_conts h3, move_conts h2, r.others i hi, hc] at hc'; cases hc'
    exact ⟨rfl, rfl⟩

theorem reserve_find {w w' : World} (hw : Inv w) {k n : Nat} {e : Env} (h : w.reserve k n e = .ok w')
    {i : Nat} {c c' : Cont} (hc : w.conts.find? i = some c) (hc' : w'.conts.find? i = some c')
    (hs : k = i → n ≤ c.cap) : c'.start = c.start ∧ c'.cap = c.cap := by
  obtain ⟨d, hd, h1⟩ := bind_ok h
  replace hd := get_ok hd
  obtain ⟨w1, c1, h1', r, _, hsame⟩ := reserve_ok hw hd (by rw [h]; exact fun x => by cases x)
  rw [h] at h1'; cases h1'
  by_cases hi : i = k
  · subst hi
    rw [hc] at hd; cases hd
    have := hsame (hs rfl)
    subst this
    rw [hc] at hc'; cases hc'
    exact ⟨rfl, rfl⟩
  · rw [r.others i hi, hc] at hc'; cases hc'
    exact ⟨rfl, rfl⟩

theorem assign_find {w w' : World} (hw : Inv w) {k : Nat} {s : Src} {e : Env} (h : w.assign k s e = .ok w')
    {i : Nat} {c c' : Cont} (hc : w.conts.find? i = some c) (hc' : w'.conts.find? i = some c')
    (hs : c'.size ≤ c.cap) : c'.start = c.start ∧ c'.cap = c.cap := by
  obtain ⟨n, _, h⟩ := bind_ok h
  obtain ⟨w0, h0, h⟩ := bind_ok h
  obtain ⟨d, hd, rfl⟩ := setSize_find h0
  obtain ⟨w1, h1, h⟩ := bind_ok h
  obtain ⟨i0, _⟩ := edit_ok hw hd (s := 0) (w' := w.setC k { d with size := 0 }) (by omega) rfl
    (fun j => find_setC _ _ _ _) (fun a _ => rfl)
  have f0 : (w.setC k { d with size := 0 }).conts.find? k = some { d with size := 0 } := by rw [find_setC, if_pos rfl]
  obtain ⟨w1', c1, h1', r, _, hsame⟩ := reserve_ok i0 f0 (by rw [h1]; exact fun x => by cases x)
  rw [h1] at h1'; cases h1'
  obtain ⟨c1', hc1, h⟩ := bind_ok h
  replace hc1 := get_ok hc1
  rw [r.find] at hc1; cases hc1
  obtain ⟨w2, h2, h⟩ := bind_ok h
  obtain ⟨c3, hc3, rfl⟩ := setSize_find h
  rw [fill_conts h2, r.find] at hc3; cases hc3
  rw [find_setC] at hc'
  by_cases hi : i = k
  · subst hi
    rw [hc] at hd; cases hd
    rw [if_pos rfl] at hc'; cases hc'
    simp only at hs ⊢
    have := hsame hs
    have hf := r.find
    rw [this, f0] at hf; cases hf
    exact ⟨rfl, rfl⟩
  · rw [if_neg hi, fill_conts h2, r.others i hi, find_setC, if_neg hi, hc] at hc'; cases hc'
    exact ⟨rfl, rfl⟩

theorem step_stable {w w' : World} (hw : Inv w) {o : Op} {e : Env} (h : w.step o e = .ok w') {i : Nat} {c c' : Cont}
    (hc : w.conts.find? i = some c) (hc' : w'.conts.find? i = some c') (hs : c'.size ≤ c.cap)
    (hr : ∀ n, o = .reserve i n → n ≤ c.cap) : c'.start = c.start ∧ c'.cap = c.cap := by
  have same : ∀ {v : World}, v.conts = w.conts → v = w' → c'.start = c.start ∧ c'.cap = c.cap := by
    rintro v hv rfl
    rw [hv, hc] at hc'; cases hc'
    exact ⟨rfl, rfl⟩
  cases o with
  | new k init =>
    have key : ∃ v, w.born k e = .ok v ∧ (match init with
        | .empty => v.reserve k S e | .fill n x => v.assign k (.raw (List.replicate n x)) e
        | .copy s => v.assign k s e) = .ok w' := by
      cases init <;> exact bind_ok h
    obtain ⟨v, hv, h⟩ := key
    cases hk : w.conts.find? k with
    | some d => simp [World.born, hk] at hv
    | none =>
      obtain ⟨_, v', hv', hv2, iv, _⟩ := born_ok hw hk (by rw [hv]; exact fun x => by cases x)
      rw [hv] at hv'; cases hv'
      have hik : i ≠ k := fun x => by rw [x, hk] at hc; cases hc
      have hcv : v.conts.find? i = some c := by rw [hv2, find_setC, if_neg hik, hc]
      cases init with
      | empty => exact reserve_find iv h hcv hc' (fun x => absurd x.symm hik)
      | fill n x => exact assign_find iv h hcv hc' hs
      | copy s => exact assign_find iv h hcv hc' hs
  | destroy k =>
    obtain ⟨d, hd, h⟩ := bind_ok h
    replace hd := get_ok hd
    obtain ⟨w1, h1, h⟩ := bind_ok h
    cases h
    simp only [UMap.find_erase] at hc'
    by_cases hi : i = k
    · rw [if_pos hi] at hc'; cases hc'
    · rw [if_neg hi] at hc'
      simp only [World.release] at h1
      split at h1
      · cases h1; rw [hc] at hc'; cases hc'; exact ⟨rfl, rfl⟩
      · obtain ⟨w1', a1, e1, m1, f1, _⟩ := dealloc_ok hw.b hd (hw.block hd (by omega)) (hw.sz k d hd).2
        rw [h1] at e1; cases e1
        rw [f1, if_neg hi, hc] at hc'; cases hc'; exact ⟨rfl, rfl⟩
  | assign k j => exact assign_find hw h hc hc' hs
  | insert k pos s => exact insert_find hw h hc hc' hs
  | append k s =>
    obtain ⟨d, hd, h⟩ := bind_ok h
    exact insert_find hw h hc hc' hs
  | push k x =>
    obtain ⟨d, hd, h⟩ := bind_ok h
    exact insert_find hw h hc hc' hs
  | set k n x =>
    obtain ⟨d, hd, h⟩ := bind_ok h
    split at h
    · exact same (put_conts h) rfl
    · cases h
  | clear k =>
    obtain ⟨d, hd, rfl⟩ := setSize_find h
    rw [find_setC] at hc'
    by_cases hi : i = k
    · subst hi
      rw [if_pos rfl] at hc'; rw [hc] at hd; cases hd; cases hc'; exact ⟨rfl, rfl⟩
    · rw [if_neg hi, hc] at hc'; cases hc'; exact ⟨rfl, rfl⟩
  | reserve k n => exact reserve_find hw h hc hc' (fun x => hr n (by rw [x]))
  | resize k n x =>
    obtain ⟨d, hd, h⟩ := bind_ok h
    split at h
    · obtain ⟨d, hd, rfl⟩ := setSize_find h
      rw [find_setC] at hc'
      by_cases hi : i = k
      · subst hi
        rw [if_pos rfl] at hc'; rw [hc] at hd; cases hd; cases hc'; exact ⟨rfl, rfl⟩
      · rw [if_neg hi, hc] at hc'; cases hc'; exact ⟨rfl, rfl⟩
    · exact insert_find hw h hc hc' hs
  | mask k j =>
    obtain ⟨d, hd, h⟩ := bind_ok h
    obtain ⟨f, hf, h⟩ := bind_ok h
    split at h
    · exact same (mask_conts _ _ _ h) rfl
    · cases h

/-! ## Clients of an arena -/

theorem alignUp_ge {al n : Nat} (h0 : 0 < al) (h : n + al ≤ 2 ^ 64) :
    n ≤ alignUp al n ∧ alignUp al n % al = 0 ∧ (n = 0 → alignUp al n = 0) := by
  simp only [alignUp]
  rw [Nat.mod_eq_of_lt (by omega : n + (al - 1) < 2 ^ 64)]
  have h1 := Nat.mod_lt (n + (al - 1)) h0
  have h2 : (n + (al - 1)) - (n + (al - 1)) % al = al * ((n + (al - 1)) / al) := by
    have := Nat.div_add_mod (n + (al - 1)) al
    omega
  refine ⟨by omega, by rw [h2]; exact Nat.mul_mod_right _ _, fun hn => ?_⟩
  subst hn
  rw [Nat.mod_eq_of_lt (by omega)]
  omega

/-- The blocks of a client are where they should be. -/
structure CInv (s : Client) : Prop where
  al : 0 < s.a.al
  ptr : s.a.base ≤ s.a.ptr ∧ s.a.ptr ≤ s.a.base + s.a.N
  ptrAl : (s.a.ptr - s.a.base) % s.a.al = 0
  held : ∀ b ∈ s.held, s.a.inBuf b.1 = true → b.2 + s.a.al ≤ 2 ^ 64 ∧
    b.1 + alignUp s.a.al b.2 ≤ s.a.base + s.a.N ∧ (b.1 - s.a.base) % s.a.al = 0 ∧
    (b.2 = 0 ∨ b.1 + alignUp s.a.al b.2 ≤ s.a.ptr)
  pw : s.held.Pairwise fun b d => s.a.inBuf b.1 = true → s.a.inBuf d.1 = true →
    b.2 = 0 ∨ d.2 = 0 ∨ b.1 + alignUp s.a.al b.2 ≤ d.1 ∨ d.1 + alignUp s.a.al d.2 ≤ b.1
  heap : s.heap = s.held.filter fun b => !s.a.inBuf b.1
  hobj : ∀ b ∈ s.heap, b.1 + max b.2 1 ≤ s.a.base ∨ s.a.base + (s.a.N + 8) ≤ b.1
  hp : s.heap.Pairwise fun b d => b.1 + max b.2 1 ≤ d.1 ∨ d.1 + max d.2 1 ≤ b.1

theorem erase_filter_neg {α : Type} [BEq α] [LawfulBEq α] (f : α → Bool) (a : α) (h : f a = false) (l : List α) :
    (l.erase a).filter f = l.filter f := by
  induction l with
  | nil => rfl
  | cons b l ih =>
    rw [List.erase_cons]
    by_cases hb : b = a
    · subst hb; simp [h]
    · rw [if_neg (by simpa using hb), List.filter_cons, List.filter_cons, ih]

theorem erase_filter_pos {α : Type} [BEq α] [LawfulBEq α] (f : α → Bool) (a : α) (h : f a = true) (l : List α) :
    (l.erase a).filter f = (l.filter f).erase a := by
  induction l with
  | nil => rfl
  | cons b l ih =>
    rw [List.erase_cons]
    by_cases hb : b = a
    · subst hb; simp [h]
    · rw [if_neg (by simpa using hb), List.filter_cons, List.filter_cons, ih]
      split
      · rw [List.erase_cons, if_neg (by simpa using hb)]
      · rfl

theorem filter_ne_erase (p n : Nat) (l : List (Nat × Nat))
    (hp : l.Pairwise fun b d => b.1 + max b.2 1 ≤ d.1 ∨ d.1 + max d.2 1 ≤ b.1) (hm : (p, n) ∈ l) :
    (l.filter fun b => b.1 ≠ p) = l.erase (p, n) := by
  induction l with
  | nil => cases hm
  | cons b l ih =>
    rw [List.pairwise_cons] at hp
    rw [List.erase_cons]
    by_cases hb : b = (p, n)
    · subst hb
      simp only [ne_eq, decide_not, List.filter_cons, decide_true, Bool.not_true, Bool.false_eq_true, if_false,
        beq_self_eq_true, if_true]
      refine List.filter_eq_self.2 fun d hd => ?_
      have := hp.1 d hd
      simp only at this
      simp only [Bool.not_eq_eq_eq_not, Bool.not_true, decide_eq_false_iff_not]
      omega
    · have hm' : (p, n) ∈ l := by
        rcases List.mem_cons.1 hm with h | h
        · exact absurd h.symm hb
        · exact h
      have := hp.1 _ hm'
      simp only at this
      have hne : b.1 ≠ p := by omega
      rw [if_neg (by simpa using hb), List.filter_cons, if_pos (by simpa using hne), ih hp.2 hm']

theorem get_step {s : Client} (h : CInv s) {n q : Nat} (hn : n + s.a.al ≤ 2 ^ 64) :
    s.step (.get n q) = .error .env ∨ ∃ s' p, s.step (.get n q) = .ok s' ∧ CInv s' ∧ s'.held = (p, n) :: s.held ∧
      s'.a.N = s.a.N ∧ s'.a.al = s.a.al ∧ s'.a.base = s.a.base := by
  obtain ⟨h1, h2⟩ := h.ptr
  have hin : s.a.inBuf s.a.ptr = true := by
    simp only [Arena.inBuf, Bool.and_eq_true, decide_eq_true_eq]; omega
  obtain ⟨u1, u2, u3⟩ := alignUp_ge h.al hn
  simp only [Client.step, Arena.allocate, hin, if_true]
  by_cases hr : alignUp s.a.al n ≤ s.a.base + s.a.N - s.a.ptr
  · simp only [if_pos hr]
    right
    refine ⟨_, s.a.ptr, rfl, ⟨h.al, ?_, ?_, ?_, ?_, ?_, h.hobj, h.hp⟩, rfl, rfl, rfl, rfl⟩
    · simp only; omega
    · simp only
      rw [show s.a.ptr + alignUp s.a.al n - s.a.base = (s.a.ptr - s.a.base) + alignUp s.a.al n by omega,
        Nat.add_mod, h.ptrAl, u2]
      simp
    · intro b hb hib
      rcases List.mem_cons.1 hb with rfl | hb
      · simp only
        exact ⟨hn, by omega, h.ptrAl, .inr (Nat.le_refl _)⟩
      · obtain ⟨g1, g2, g3, g4⟩ := h.held b hb hib
        exact ⟨g1, g2, g3, by simp only; omega⟩
    · refine List.pairwise_cons.2 ⟨fun b hb _ hib => ?_, h.pw⟩
      obtain ⟨g1, g2, g3, g4⟩ := h.held b hb hib
      simp only
      omega
    · simp only
      rw [h.heap, List.filter_cons, if_neg]
      · rfl
      · show ¬(!s.a.inBuf s.a.ptr) = true
        rw [hin]; exact fun x => by cases x
  · simp only [if_neg hr]
    split
    case isFalse => exact .inl rfl
    case isTrue hf =>
      right
      simp only [Bool.and_eq_true, List.all_eq_true, apart, Bool.or_eq_true, decide_eq_true_eq] at hf
      have hq : s.a.inBuf q = false := by
        simp only [Arena.inBuf, Bool.and_eq_false_iff, decide_eq_false_iff_not]
        omega
      refine ⟨_, q, rfl, ⟨h.al, h.ptr, h.ptrAl, ?_, ?_, ?_, ?_, ?_⟩, rfl, rfl, rfl, rfl⟩
      · intro b hb hib
        rcases List.mem_cons.1 hb with rfl | hb
        · simp only at hib
          rw [hq] at hib; cases hib
        · exact h.held b hb hib
      · refine List.pairwise_cons.2 ⟨fun b hb hib _ => ?_, h.pw⟩
        simp only at hib
        rw [hq] at hib; cases hib
      · simp only
        rw [List.filter_cons, if_pos (by rw [hq]; rfl), h.heap]
      · intro b hb
        rcases List.mem_cons.1 hb with rfl | hb
        · simp only; omega
        · exact h.hobj b hb
      · refine List.pairwise_cons.2 ⟨fun b hb => ?_, h.hp⟩
        have := hf.1 b hb
        simp only
        omega

theorem give_step {s : Client} (h : CInv s) {p n : Nat} (hm : (p, n) ∈ s.held) :
    ∃ s', s.step (.give p n) = .ok s' ∧ CInv s' ∧ s'.held = s.held.erase (p, n) ∧
      s'.a.N = s.a.N ∧ s'.a.al = s.a.al ∧ s'.a.base = s.a.base := by
  obtain ⟨h1, h2⟩ := h.ptr
  have hin : s.a.inBuf s.a.ptr = true := by
    simp only [Arena.inBuf, Bool.and_eq_true, decide_eq_true_eq]; omega
  simp only [Client.step, if_pos hm, Arena.deallocate, hin, if_true]
  cases hb : s.a.inBuf p with
  | true =>
    simp only [if_true]
    obtain ⟨g1, g2, g3, g4⟩ := h.held (p, n) hm hb
    simp only at g1 g2 g3 g4
    have hb' : s.a.base ≤ p ∧ p ≤ s.a.base + s.a.N := by
      simpa only [Arena.inBuf, Bool.and_eq_true, decide_eq_true_eq] using hb
    obtain ⟨u1, u2, u3⟩ := alignUp_ge h.al g1
    generalize ha : (if p + alignUp s.a.al n = s.a.ptr then { s.a with ptr := p } else s.a : Arena) = a'
    have ha' : a'.base = s.a.base ∧ a'.N = s.a.N ∧ a'.al = s.a.al ∧
        ((p + alignUp s.a.al n = s.a.ptr ∧ a'.ptr = p) ∨ a'.ptr = s.a.ptr) := by
      rw [← ha]
      split
      · exact ⟨rfl, rfl, rfl, .inl ⟨‹_›, rfl⟩⟩
      · exact ⟨rfl, rfl, rfl, .inr rfl⟩
    obtain ⟨ab, aN, aal, ap⟩ := ha'
    have hbuf : ∀ x, a'.inBuf x = s.a.inBuf x := fun x => by simp only [Arena.inBuf, ab, aN]
    have hpw : ∀ b ∈ s.held.erase (p, n), s.a.inBuf b.1 = true →
        b.2 = 0 ∨ n = 0 ∨ b.1 + alignUp s.a.al b.2 ≤ p ∨ p + alignUp s.a.al n ≤ b.1 := by
      have hperm := List.perm_cons_erase hm
      have := h.pw
      rw [hperm.pairwise_iff (by
        intro x y hxy hy hx
        have := hxy hx hy
        omega)] at this
      intro b hb1 hb2
      have := (List.pairwise_cons.1 this).1 b hb1 hb hb2
      simp only at this
      omega
    refine ⟨_, rfl, ⟨?_, ?_, ?_, ?_, ?_, ?_, ?_, h.hp⟩, rfl, aN, aal, ab⟩
    · simp only [aal]; exact h.al
    · simp only [ab, aN]; omega
    · simp only [ab, aal]
      rcases ap with ⟨_, ap⟩ | ap
      · rw [ap]; exact g3
      · rw [ap]; exact h.ptrAl
    · intro b hb1 hb2
      simp only [hbuf] at hb2
      obtain ⟨k1, k2, k3, k4⟩ := h.held b (List.mem_of_mem_erase hb1) hb2
      have := hpw b hb1 hb2
      simp only [ab, aN, aal]
      refine ⟨k1, k2, k3, ?_⟩
      rcases ap with ⟨ap1, ap2⟩ | ap
      · rw [ap2]
        rcases k4 with k4 | k4
        · exact .inl k4
        · rcases this with h' | h' | h' | h'
          · exact .inl h'
          · have := u3 h'; right; omega
          · exact .inr h'
          · have := (alignUp_ge h.al k1).1; left; omega
      · rw [ap]; exact k4
    · have := (h.pw.sublist (List.erase_sublist (a := (p, n)) (l := s.held)))
      refine this.imp ?_
      intro b d hx
      simp only [hbuf, aal]
      exact hx
    · simp only [hbuf]
      rw [h.heap]
      exact (erase_filter_neg (fun b : Nat × Nat => !s.a.inBuf b.1) (p, n) (by simp only [hb]; rfl) _).symm
    · intro b hb1
      simp only [ab, aN]
      exact h.hobj b hb1
  | false =>
    have hmh : (p, n) ∈ s.heap := by
      rw [h.heap]
      exact List.mem_filter.2 ⟨hm, by rw [hb]; rfl⟩
    simp only [Bool.false_eq_true, if_false]
    rw [if_pos (List.mem_map.2 ⟨_, hmh, rfl⟩)]
    refine ⟨_, rfl, ⟨h.al, h.ptr, h.ptrAl, ?_, ?_, ?_, ?_, ?_⟩, rfl, rfl, rfl, rfl⟩
    · intro b hb1 hb2
      exact h.held b (List.mem_of_mem_erase hb1) hb2
    · exact h.pw.sublist List.erase_sublist
    · simp only
      rw [filter_ne_erase p n _ h.hp hmh, h.heap]
      exact (erase_filter_pos (fun b : Nat × Nat => !s.a.inBuf b.1) (p, n) (by simp only [hb]; rfl) _).symm
    · intro b hb1
      exact h.hobj b (List.mem_filter.1 hb1).1
    · exact h.hp.filter _

end Bm.ByteCont
