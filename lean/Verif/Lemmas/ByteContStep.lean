import Verif.Lemmas.ByteContOps

/-! # Byte containers: steps and runs -/

namespace Bm.ByteCont

theorem inv_init : Inv {} := by
  refine ⟨⟨?_, ?_, ?_, ?_, ?_, ?_, ?_⟩, ?_⟩
  · intro i c h; cases h
  · intro i j c d h; cases h
  · intro b h; cases h
  · exact .nil
  · rintro i p n ⟨c, h, _⟩; cases h
  · rintro i p n j q m ⟨c, h, _⟩; cases h
  · intro p n h; cases h
  · intro i c h; cases h

theorem born_ok {w : World} (h : Inv w) {i : Nat} {e : Env} (hc : w.conts.find? i = none)
    (he : w.born i e ≠ .error .env) :
    w.free e.base objSize = true ∧ ∃ w', w.born i e = .ok w' ∧ w' = w.setC i { a := Arena.mk' S 1 e.base } ∧ Inv w' ∧
      w'.bytes = Spec.upd w.bytes i (some []) := by
  simp only [World.born, hc] at he ⊢
  by_cases hf : w.free e.base objSize = true
  · rw [if_pos hf]
    refine ⟨hf, _, rfl, rfl, ⟨?_, ?_⟩, ?_⟩
    · have key : ∀ j d, (w.setC i { a := Arena.mk' S 1 e.base }).conts.find? j = some d →
          (j ≠ i ∧ w.conts.find? j = some d) ∨ (j = i ∧ d = { a := Arena.mk' S 1 e.base }) := by
        intro j d hd
        rw [find_setC] at hd
        by_cases hj : j = i
        · rw [if_pos hj] at hd; cases hd; exact .inr ⟨hj, rfl⟩
        · rw [if_neg hj] at hd; exact .inl ⟨hj, hd⟩
      have hmax : max objSize 1 = 56 := rfl
      constructor
      · intro j d hd
        rcases key j d hd with ⟨_, hd⟩ | ⟨_, rfl⟩
        · exact h.b.ar j d hd
        · exact ⟨rfl, rfl, Nat.le_refl _, Nat.le_add_right _ _⟩
      · intro j k d f hd hf' hjk
        rcases key j d hd with ⟨_, hd⟩ | ⟨hj, rfl⟩ <;> rcases key k f hf' with ⟨_, hf'⟩ | ⟨hk, rfl⟩
        · exact h.b.obj j k d f hd hf' hjk
        · have := free_obj hf j d hd
          simp only [hmax] at this
          simp only [Arena.mk']
          omega
        · have := free_obj hf k f hf'
          simp only [hmax] at this
          simp only [Arena.mk']
          omega
        · omega
      · intro b hb j d hd
        rcases key j d hd with ⟨_, hd⟩ | ⟨hj, rfl⟩
        · exact h.b.hobj b hb j d hd
        · have := free_heap hf b hb
          simp only [hmax] at this
          simp only [Arena.mk']
          omega
      · exact h.b.hp
      · rintro j p n ⟨d, hd, h1, h2, h3⟩
        simp only at h1 h2 hd
        rcases key j d hd with ⟨hj, hd'⟩ | ⟨hj, rfl⟩
        · obtain ⟨h0, d', hd'', hx⟩ := h.b.inn j p n ⟨d, hd', h1, h2, h3⟩
          rw [hd'] at hd''; cases hd''
          exact ⟨h0, d, hd, hx⟩
        · cases h3
      · rintro j p n k q m ⟨d, hd, h1, h2, h3⟩ ⟨f, hf', g1, g2, g3⟩ hne
        simp only at h1 h2 hd g1 g2 hf'
        rcases key j d hd with ⟨_, hd⟩ | ⟨hj, rfl⟩
        · rcases key k f hf' with ⟨_, hf'⟩ | ⟨hk, rfl⟩
          · exact h.b.dis j p n k q m ⟨d, hd, h1, h2, h3⟩ ⟨f, hf', g1, g2, g3⟩ hne
          · cases g3
        · cases h3
      · intro p n hb
        obtain ⟨j, d, hd, h1, h2, h3⟩ := h.b.own p n hb
        simp only at h1 h2 hd
        refine ⟨j, d, ?_, h1, h2, h3⟩
        simp only [find_setC]
        rw [if_neg, hd]
        intro hj
        rw [hj, hc] at hd
        cases hd
    · intro j d hd
      rw [find_setC] at hd
      by_cases hj : j = i
      · rw [if_pos hj] at hd; cases hd; exact ⟨Nat.le_refl _, Nat.two_pow_pos 63⟩
      · rw [if_neg hj] at hd; exact h.sz j d hd
    · funext j
      simp only [World.bytes, find_setC, Spec.upd]
      by_cases hj : j = i
      · simp [hj]
      · simp [hj]
  · rw [if_neg hf] at he
    exact absurd rfl he

theorem bytes_mem {w : World} {i : Nat} {c : Cont} (hc : w.conts.find? i = some c) (m : Nat → UInt8) :
    World.bytes { w with mem := m } i = some ((List.range c.size).map fun k => m (c.start + k)) :=
  bytes_some (w := { w with mem := m }) hc

theorem upd_upd (s : Spec.St) (i : Nat) (a b : Option Bytes) : Spec.upd (Spec.upd s i a) i b = Spec.upd s i b := by
  funext j
  simp only [Spec.upd]
  split <;> rfl

theorem src_upd (s : Spec.St) (i : Nat) (a : Option Bytes) (c : Src) :
    Spec.src (Spec.upd s i a) i c = Spec.src s i c := by
  cases c with
  | raw _ => rfl
  | cont j =>
    simp only [Spec.src, Spec.upd]
    split <;> rfl

theorem destroy_ok {w : World} (h : Inv w) {i : Nat} {c : Cont} (hc : w.conts.find? i = some c) :
    Refines (w.destroy i) (.ok (Spec.upd w.bytes i none)) := by
  simp only [World.destroy, get_some hc, ok_bind, pure_ok, World.release]
  obtain ⟨hsz, hcap⟩ := h.sz i c hc
  have fin : ∀ w1 : World, w1.mem = w.mem → (∀ j, j ≠ i → w1.conts.find? j = w.conts.find? j) →
      InvB w1 (fun x => blocksOf w x ∧ x.1 ≠ i) →
      Refines (.ok { w1 with conts := w1.conts.erase i }) (.ok (Spec.upd w.bytes i none)) := by
    intro w1 hm ho hb
    have key : ∀ j d, (w1.conts.erase i).find? j = some d → j ≠ i ∧ w1.conts.find? j = some d ∧
        w.conts.find? j = some d := by
      intro j d hd
      rw [UMap.find_erase] at hd
      by_cases hj : j = i
      · rw [if_pos hj] at hd; cases hd
      · rw [if_neg hj] at hd
        exact ⟨hj, hd, by rw [← ho j hj]; exact hd⟩
    refine ⟨⟨⟨?_, ?_, ?_, ?_, ?_, ?_, ?_⟩, ?_⟩, ?_⟩
    · intro j d hd
      exact hb.ar j d (key j d hd).2.1
    · intro j k d f hd hf hjk
      exact hb.obj j k d f (key j d hd).2.1 (key k f hf).2.1 hjk
    · intro b hb' j d hd
      exact hb.hobj b hb' j d (key j d hd).2.1
    · exact hb.hp
    · rintro j p n ⟨d, hd, h1, h2, h3⟩
      simp only at h1 h2 hd
      obtain ⟨hj, hd1, hd2⟩ := key j d hd
      obtain ⟨h0, d', hd', hx⟩ := hb.inn j p n ⟨⟨d, hd2, h1, h2, h3⟩, hj⟩
      rw [hd1] at hd'; cases hd'
      exact ⟨h0, d, hd, hx⟩
    · rintro j p n k q m ⟨d, hd, h1, h2, h3⟩ ⟨f, hf, g1, g2, g3⟩ hne
      simp only at h1 h2 hd g1 g2 hf
      obtain ⟨hj, hd1, hd2⟩ := key j d hd
      obtain ⟨hk, hf1, hf2⟩ := key k f hf
      exact hb.dis j p n k q m ⟨⟨d, hd2, h1, h2, h3⟩, hj⟩ ⟨⟨f, hf2, g1, g2, g3⟩, hk⟩ hne
    · intro p n hb'
      obtain ⟨j, ⟨d, hd, h1, h2, h3⟩, hj⟩ := hb.own p n hb'
      simp only at h1 h2 hd hj
      refine ⟨j, d, ?_, h1, h2, h3⟩
      simp only [UMap.find_erase]
      rw [if_neg hj, ho j hj, hd]
    · intro j d hd
      exact h.sz j d (key j d hd).2.2
    · funext j
      simp only [World.bytes, UMap.find_erase, Spec.upd, hm]
      by_cases hj : j = i
      · simp [hj]
      · simp [hj, ho j hj]
  by_cases h0 : c.cap = 0
  · simp only [if_pos h0, ok_bind]
    refine fin w rfl (fun _ _ => rfl) (h.b.congr rfl (fun _ => rfl) fun ⟨j, p, n⟩ => ?_)
    simp only [blocksOf]
    constructor
    · exact fun hx => hx.1
    · rintro ⟨d, hd, h1, h2, h3⟩
      refine ⟨⟨d, hd, h1, h2, h3⟩, fun hj => ?_⟩
      rw [hj, hc] at hd; cases hd
      omega
  · obtain ⟨w1, a1, e1, m1, f1, _, b1⟩ := dealloc_ok h.b hc (h.block hc (by omega)) hcap
    simp only [if_neg h0, e1, ok_bind]
    refine fin w1 m1 (fun j hj => by rw [f1, if_neg hj]) (b1.congr rfl (fun _ => rfl) fun ⟨j, p, n⟩ => ?_)
    simp only [blocksOf]
    constructor
    · rintro ⟨hx, hj⟩
      exact ⟨hx, fun e => hj (congrArg Prod.fst e)⟩
    · rintro ⟨⟨d, hd, h1, h2, h3⟩, hne⟩
      refine ⟨⟨d, hd, h1, h2, h3⟩, fun hj => ?_⟩
      rw [hj, hc] at hd; cases hd
      apply hne
      rw [hj, ← h1, ← h2]

theorem insert_any {w : World} (h : Inv w) {i pos : Nat} {s : Src} {e : Env}
    (he : w.insert i pos s e ≠ .error .env) :
    Refines (w.insert i pos s e) (Spec.step w.bytes (.insert i pos s)) := by
  simp only [Spec.step]
  cases hs : Spec.src w.bytes i s with
  | none =>
    simp only [World.insert, srcLen_none hs, err_bind]
    cases w.bytes i <;> rfl
  | some bs =>
    cases hl : w.bytes i with
    | none =>
      simp only [World.insert, srcLen_some hs, ok_bind, get_none (bytes_none.1 hl), err_bind]
      rfl
    | some l =>
      by_cases hp : pos ≤ l.length
      · simp only [if_pos hp]
        exact insert_ok h hl hs hp he
      · simp only [if_neg hp]
        cases hc : w.conts.find? i with
        | none => rw [bytes_none.2 hc] at hl; cases hl
        | some c =>
          rw [bytes_some hc] at hl
          have : l.length = c.size := by rw [← Option.some.inj hl]; simp
          simp only [World.insert, srcLen_some hs, get_some hc, ok_bind]
          rw [if_pos (by omega)]
          rfl

theorem assign_any {w : World} (h : Inv w) {i : Nat} {s : Src} {e : Env} {c : Cont}
    (hc : w.conts.find? i = some c) (he : w.assign i s e ≠ .error .env) :
    Refines (w.assign i s e) (match Spec.src w.bytes i s with
      | some b => .ok (Spec.upd w.bytes i (some b)) | none => .error .ub) := by
  cases hs : Spec.src w.bytes i s with
  | none =>
    simp only [World.assign, srcLen_none hs, err_bind]
    rfl
  | some bs => exact assign_ok h hc hs he

theorem size_eq {w : World} {i : Nat} {c : Cont} {l : Bytes} (hc : w.conts.find? i = some c)
    (hl : w.bytes i = some l) : l.length = c.size := by
  rw [bytes_some hc] at hl
  rw [← Option.some.inj hl]; simp

theorem mem_eq {w : World} {i : Nat} {c : Cont} {l : Bytes} (hc : w.conts.find? i = some c)
    (hl : w.bytes i = some l) {k : Nat} (hk : k < l.length) : w.mem (c.start + k) = l[k] := by
  rw [bytes_some hc] at hl
  have := Option.some.inj hl
  subst this
  simp

theorem found {w : World} {i : Nat} {l : Bytes} (hl : w.bytes i = some l) : ∃ c, w.conts.find? i = some c := by
  cases hc : w.conts.find? i with
  | none => rw [bytes_none.2 hc] at hl; cases hl
  | some c => exact ⟨c, rfl⟩

/-- The size changes, not the storage. -/
theorem setSize_ok {w : World} (h : Inv w) {i n : Nat} {l : Bytes} (hl : w.bytes i = some l) (hn : n ≤ l.length) :
    Refines (w.setSize i n) (.ok (Spec.upd w.bytes i (some (l.take n)))) := by
  obtain ⟨c, hc⟩ := found hl
  have hs := size_eq hc hl
  have h1 := (h.sz i c hc).1
  rw [setSize_some hc]
  obtain ⟨i3, o3⟩ := edit_ok h hc (s := n) (w' := w.setC i { c with size := n }) (by omega) rfl
    (fun j => find_setC _ _ _ _) (fun a _ => rfl)
  refine ⟨i3, funext fun j => ?_⟩
  by_cases hj : j = i
  · subst hj
    rw [bytes_some (find_setC _ _ _ _ |>.trans (if_pos rfl))]
    simp only [Spec.upd, if_true]
    congr 1
    refine List.ext_getElem (by simp; omega) fun k hk hk' => ?_
    simp only [List.length_map, List.length_range] at hk
    rw [List.getElem_map, List.getElem_range, List.getElem_take]
    exact mem_eq hc hl (by omega)
  · rw [o3 j hj]
    simp [Spec.upd, hj]

theorem step_ok {w : World} (h : Inv w) (o : Op) (e : Env) (he : w.step o e ≠ .error .env) :
    Refines (w.step o e) (Spec.step w.bytes o) := by
  cases o with
  | new i k =>
    simp only [World.step] at he ⊢
    cases hc : w.conts.find? i with
    | some c =>
      have e1 : w.born i e = .error .ub := by simp [World.born, hc]
      have hb : ∃ l, w.bytes i = some l := ⟨_, bytes_some hc⟩
      obtain ⟨l, hl⟩ := hb
      have e2 : w.new i k e = .error .ub := by
        cases k <;> simp only [World.new, e1, err_bind]
      rw [e2]
      simp only [Spec.step, hl]
      rfl
    | none =>
      have heb : w.born i e ≠ .error .env := by
        intro x
        apply he
        cases k <;> simp only [World.new, x, err_bind]
      obtain ⟨_, w1, e1, hw1, i1, b1⟩ := born_ok h hc heb
      have f1 : w1.conts.find? i = some { a := Arena.mk' S 1 e.base } := by
        rw [hw1, find_setC, if_pos rfl]
      have hb : w.bytes i = none := bytes_none.2 hc
      cases k with
      | empty =>
        simp only [World.new, e1, ok_bind, Spec.step, hb] at he ⊢
        obtain ⟨w2, c2, e2, r, _⟩ := reserve_ok i1 f1 he
        rw [e2]
        exact ⟨r.inv, funext fun j => by rw [r.bytes j, b1]⟩
      | fill n x =>
        simp only [World.new, e1, ok_bind, Spec.step, hb] at he ⊢
        have := assign_ok i1 f1 (s := .raw (List.replicate n x)) rfl he
        rw [b1, upd_upd] at this
        exact this
      | copy s =>
        simp only [World.new, e1, ok_bind, Spec.step, hb] at he ⊢
        have := assign_any i1 f1 he
        simp only [b1, upd_upd, src_upd] at this
        cases hs : Spec.src w.bytes i s with
        | none => rw [hs] at this; exact this
        | some b => rw [hs] at this; exact this
  | destroy i =>
    simp only [World.step, Spec.step]
    cases hc : w.conts.find? i with
    | none =>
      rw [if_pos (bytes_none.2 hc)]
      simp only [World.destroy, get_none hc, err_bind]
      rfl
    | some c =>
      rw [if_neg (by rw [bytes_some hc]; exact fun x => by cases x)]
      exact destroy_ok h hc
  | assign i j =>
    simp only [World.step, Spec.step] at he ⊢
    cases hc : w.conts.find? i with
    | none =>
      rw [bytes_none.2 hc]
      cases hs : Spec.src w.bytes i (.cont j) with
      | none =>
        simp only [World.assign, srcLen_none hs, err_bind]
        rfl
      | some b =>
        simp only [World.assign, srcLen_some hs, ok_bind, World.setSize, get_none hc, err_bind]
        rfl
    | some c =>
      have := assign_any h hc he
      rw [bytes_some hc]
      cases hs : Spec.src w.bytes i (.cont j) with
      | none => rw [hs] at this; exact this
      | some b => rw [hs] at this; exact this
  | insert i pos s => exact insert_any h he
  | append i s =>
    simp only [World.step] at he ⊢
    cases hc : w.conts.find? i with
    | none =>
      simp only [get_none hc, err_bind, Spec.step, bytes_none.2 hc]
      cases Spec.src w.bytes i s <;> rfl
    | some c =>
      simp only [get_some hc, ok_bind] at he ⊢
      have := insert_any h he
      cases hl : w.bytes i with
      | none => rw [bytes_some hc] at hl; cases hl
      | some l =>
        have hs := size_eq hc hl
        simp only [Spec.step, hl, ← hs] at this ⊢
        cases hb : Spec.src w.bytes i s with
        | none => rw [hb] at this; exact this
        | some b =>
          rw [hb] at this
          simpa [Spec.splice] using this
  | push i x =>
    simp only [World.step] at he ⊢
    cases hc : w.conts.find? i with
    | none =>
      simp only [get_none hc, err_bind, Spec.step, bytes_none.2 hc]
      rfl
    | some c =>
      simp only [get_some hc, ok_bind] at he ⊢
      have := insert_any h he
      cases hl : w.bytes i with
      | none => rw [bytes_some hc] at hl; cases hl
      | some l =>
        have hs := size_eq hc hl
        simp only [Spec.step, hl, ← hs, Spec.src] at this ⊢
        simpa [Spec.splice] using this
  | set i n x =>
    simp only [World.step, World.set, Spec.step]
    cases hl : w.bytes i with
    | none =>
      simp only [get_none (bytes_none.1 hl), err_bind]
      rfl
    | some l =>
      obtain ⟨c, hc⟩ := found hl
      have hs := size_eq hc hl
      have h1 := (h.sz i c hc).1
      simp only [get_some hc, ok_bind, hs]
      by_cases hn : n < c.size
      · simp only [if_pos hn, World.put]
        rw [if_pos (h.valid hc (by omega) (by simp only [List.length_cons, List.length_nil]; omega))]
        obtain ⟨i3, o3⟩ := edit_ok h hc (s := c.size)
          (w' := { w with mem := fun a => if c.start + n ≤ a ∧ a < c.start + n + [x].length then [x].getD (a - (c.start + n)) 0 else w.mem a })
          h1 rfl (fun j => by
            by_cases hj : j = i
            · subst hj; rw [if_pos rfl]; exact hc
            · rw [if_neg hj])
          (fun a ha => by
            simp only [List.length_cons, List.length_nil]
            rw [if_neg (by omega)])
        refine ⟨i3, funext fun j => ?_⟩
        by_cases hj : j = i
        · subst hj
          rw [bytes_mem hc]
          simp only [Spec.upd, if_true]
          congr 1
          refine List.ext_getElem (by simp; omega) fun k hk hk' => ?_
          simp only [List.length_map, List.length_range] at hk
          rw [List.getElem_map, List.getElem_range, List.getElem_set]
          simp only [List.length_cons, List.length_nil]
          by_cases hkn : n = k
          · subst hkn
            rw [if_pos (by omega), if_pos rfl, Nat.sub_self]
            rfl
          · rw [if_neg (by omega), if_neg hkn]
            exact mem_eq hc hl (by omega)
        · rw [o3 j hj]
          simp [Spec.upd, hj]
      · simp only [if_neg hn]
        rfl
  | clear i =>
    simp only [World.step, Spec.step]
    cases hl : w.bytes i with
    | none =>
      simp only [World.setSize, get_none (bytes_none.1 hl), err_bind]
      rfl
    | some l =>
      rw [if_neg (by simp)]
      have := setSize_ok h hl (n := 0) (Nat.zero_le _)
      simpa using this
  | reserve i n =>
    simp only [World.step, Spec.step] at he ⊢
    cases hl : w.bytes i with
    | none =>
      simp only [World.reserve, get_none (bytes_none.1 hl), err_bind]
      rfl
    | some l =>
      rw [if_neg (by simp)]
      obtain ⟨c, hc⟩ := found hl
      obtain ⟨w2, c2, e2, r, _⟩ := reserve_ok h hc he
      rw [e2]
      exact ⟨r.inv, funext fun j => r.bytes j⟩
  | resize i n x =>
    simp only [World.step, World.resize, Spec.step] at he ⊢
    cases hl : w.bytes i with
    | none =>
      simp only [get_none (bytes_none.1 hl), err_bind]
      rfl
    | some l =>
      obtain ⟨c, hc⟩ := found hl
      have hs := size_eq hc hl
      simp only [get_some hc, ok_bind] at he ⊢
      by_cases hn : n ≤ c.size
      · simp only [if_pos hn]
        have := setSize_ok h hl (n := n) (by omega)
        rw [show n - l.length = 0 by omega]
        simpa using this
      · simp only [if_neg hn] at he ⊢
        have := insert_any h he
        simp only [Spec.step, hl, ← hs, Spec.src] at this ⊢
        rw [List.take_of_length_le (by omega : l.length ≤ n)]
        simpa [Spec.splice] using this
  | mask i j =>
    simp only [World.step, World.mask, Spec.step]
    cases hl : w.bytes i with
    | none =>
      simp only [get_none (bytes_none.1 hl), err_bind]
      rfl
    | some l =>
      obtain ⟨c, hc⟩ := found hl
      have hs := size_eq hc hl
      simp only [get_some hc, ok_bind]
      cases hm : w.bytes j with
      | none =>
        simp only [get_none (bytes_none.1 hm), err_bind]
        rfl
      | some m =>
        obtain ⟨d, hd⟩ := found hm
        have hs' := size_eq hd hm
        have h1 := (h.sz i c hc).1
        have h2 := (h.sz j d hd).1
        simp only [get_some hd, ok_bind, hs, hs']
        by_cases hcd : c.size = d.size
        · simp only [if_pos hcd]
          rw [maskLoop_ok c.start d.start c.size w 0
            (fun x _ hx => ⟨h.valid hc (by omega) (by omega), h.valid hd (by omega) (by omega)⟩)
            (by
              by_cases hij : i = j
              · subst hij
                rw [hc] at hd; cases hd
                exact .inl rfl
              · by_cases h0 : c.size = 0
                · omega
                · have := h.apart hc hd hij (by omega) (by omega)
                  omega)]
          obtain ⟨i3, o3⟩ := edit_ok h hc (s := c.size)
            (w' := { w with mem := fun x => if c.start + 0 ≤ x ∧ x < c.start + 0 + c.size then w.mem x &&& w.mem (d.start + (x - c.start)) else w.mem x })
            h1 rfl (fun j => by
              by_cases hj : j = i
              · subst hj; rw [if_pos rfl]; exact hc
              · rw [if_neg hj])
            (fun a ha => by
              dsimp only
              rw [if_neg (by omega)])
          refine ⟨i3, funext fun k => ?_⟩
          by_cases hj : k = i
          · subst hj
            rw [bytes_mem hc]
            simp only [Spec.upd, if_true]
            congr 1
            refine List.ext_getElem (by simp; omega) fun t ht ht' => ?_
            simp only [List.length_map, List.length_range] at ht
            rw [List.getElem_map, List.getElem_range, List.getElem_zipWith]
            rw [if_pos (by omega), Nat.add_sub_cancel_left, mem_eq hc hl (by omega), mem_eq hd hm (by omega)]
          · rw [o3 k hj]
            simp [Spec.upd, hj]
        · simp only [if_neg hcd]
          rfl

theorem inv_run (l : List (Op × Env)) : ∀ {w w' : World}, Inv w → w.run l = .ok w' → Inv w' := by
  induction l with
  | nil => intro w w' h e; cases e; exact h
  | cons p l ih =>
    intro w w' h e
    obtain ⟨o, env⟩ := p
    simp only [World.run] at e
    cases hs : w.step o env with
    | error f => rw [hs] at e; cases e
    | ok w1 =>
      rw [hs, ok_bind] at e
      have := step_ok h o env (by rw [hs]; exact fun x => by cases x)
      rw [hs] at this
      refine ih ?_ e
      revert this
      cases Spec.step w.bytes o with
      | error f => exact fun x => x.elim
      | ok t => exact fun x => x.1

end Bm.ByteCont
