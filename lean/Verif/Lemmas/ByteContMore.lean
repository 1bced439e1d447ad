import Verif.Lemmas.ByteContStep

/-! # Byte containers: the environment always finds room; clients of an arena -/

namespace Bm.ByteCont

/-- A bound of the addresses in use. -/
def Below (w : World) (M : Nat) : Prop :=
  (∀ b ∈ w.heap, b.1 + max b.2 1 ≤ M) ∧ ∀ i c, w.conts.find? i = some c → c.a.base + 56 ≤ M

theorem list_bound {α : Type} (f : α → Nat) (l : List α) : ∃ M, ∀ x ∈ l, f x ≤ M := by
  induction l with
  | nil => exact ⟨0, fun x h => by cases h⟩
  | cons a l ih =>
    obtain ⟨M, hM⟩ := ih
    refine ⟨max (f a) M, fun x hx => ?_⟩
    rcases List.mem_cons.1 hx with rfl | hx
    · omega
    · have := hM x hx; omega

theorem below_exists (w : World) : ∃ M, Below w M := by
  obtain ⟨M1, h1⟩ := list_bound (fun b : Nat × Nat => b.1 + max b.2 1) w.heap
  obtain ⟨M2, h2⟩ := list_bound (fun p : Nat × Cont => p.2.a.base + 56) w.conts.l
  refine ⟨max M1 M2, fun b hb => ?_, fun i c hc => ?_⟩
  · have := h1 b hb; omega
  · have := h2 (i, c) ((mem_l _ _ _).2 hc)
    simp only at this
    omega

theorem Below.free {w : World} {M a : Nat} (h : Below w M) (ha : M ≤ a) (n : Nat) : w.free a n = true := by
  simp only [World.free, Bool.and_eq_true, List.all_eq_true, apart, Bool.or_eq_true, decide_eq_true_eq]
  refine ⟨fun b hb => ?_, fun p hp => ?_⟩
  · have := h.1 b hb; omega
  · have := h.2 p.1 p.2 ((mem_l _ _ _).1 hp)
    simp only [objSize]
    omega

theorem bind_env {α β : Type} {x : Except Fault α} {f : α → Except Fault β} (h : (x >>= f) = .error .env) :
    x = .error .env ∨ ∃ a, x = .ok a ∧ f a = .error .env := by
  cases x with
  | error g => left; rw [err_bind] at h; cases h; rfl
  | ok a => right; exact ⟨a, rfl, h⟩

theorem get_ne (w : World) (i : Nat) : w.get i ≠ .error .env := by
  simp only [World.get]; split <;> exact fun h => by cases h

theorem move_ne (w : World) (a b n : Nat) : w.move a b n ≠ .error .env := by
  simp only [World.move]; split <;> exact fun h => by cases h

theorem put_ne (w : World) (a : Nat) (bs : Bytes) : w.put a bs ≠ .error .env := by
  simp only [World.put]; split <;> exact fun h => by cases h

theorem setSize_ne (w : World) (i n : Nat) : w.setSize i n ≠ .error .env := by
  intro h
  rcases bind_env h with h | ⟨c, _, h⟩
  · exact get_ne _ _ h
  · cases h

theorem fill_ne (w : World) (a : Nat) (s : Src) : w.fill a s ≠ .error .env := by
  cases s with
  | raw bs => exact put_ne _ _ _
  | cont j =>
    intro h
    rcases bind_env h with h | ⟨c, _, h⟩
    · exact get_ne _ _ h
    · exact move_ne _ _ _ _ h

theorem srcLen_ne (w : World) (i : Nat) (s : Src) : w.srcLen i s ≠ .error .env := by
  cases s with
  | raw bs => exact fun h => by cases h
  | cont j =>
    simp only [World.srcLen]
    split
    · exact fun h => by cases h
    · intro h
      rcases bind_env h with h | ⟨c, _, h⟩
      · exact get_ne _ _ h
      · cases h

theorem dealloc_ne (w : World) (i p n : Nat) : w.dealloc i p n ≠ .error .env := by
  intro h
  rcases bind_env h with h | ⟨c, _, h⟩
  · exact get_ne _ _ h
  · revert h
    split
    · exact fun h => by cases h
    · exact fun h => by cases h
    · simp only [World.opDelete]
      split <;> exact fun h => by cases h

theorem release_ne (w : World) (i p n : Nat) : w.release i p n ≠ .error .env := by
  simp only [World.release]
  split
  · exact fun h => by cases h
  · exact dealloc_ne _ _ _ _

theorem alloc_env {w : World} {i n q : Nat} (h : w.alloc i n q = .error .env) :
    2 ^ 63 ≤ n ∨ w.free q n = false := by
  rcases bind_env h with h | ⟨c, _, h⟩
  · exact absurd h (get_ne _ _)
  · revert h
    split
    · exact fun _ => .inl ‹_›
    · split
      · exact fun h => by cases h
      · exact fun h => by cases h
      · intro h
        rcases bind_env h with h | ⟨c, _, h⟩
        · right
          simp only [World.opNew] at h
          revert h
          split
          · exact fun h => by cases h
          · intro _; simpa using ‹¬w.free q n = true›
        · cases h

theorem grow_env {w : World} {i n q : Nat} (h : w.grow i n q = .error .env) :
    2 ^ 63 ≤ n ∨ w.free q n = false := by
  rcases bind_env h with h | ⟨c, _, h⟩
  · exact absurd h (get_ne _ _)
  rcases bind_env h with h | ⟨⟨w1, p⟩, _, h⟩
  · exact alloc_env h
  rcases bind_env h with h | ⟨w2, _, h⟩
  · exact absurd h (move_ne _ _ _ _)
  rcases bind_env h with h | ⟨w3, _, h⟩
  · exact absurd h (release_ne _ _ _ _)
  rcases bind_env h with h | ⟨c3, _, h⟩
  · exact absurd h (get_ne _ _)
  cases h

theorem reserve_env {w : World} {i n : Nat} {e : Env} (h : w.reserve i n e = .error .env) :
    2 ^ 63 ≤ n ∨ w.free e.addr n = false := by
  rcases bind_env h with h | ⟨c, _, h⟩
  · exact absurd h (get_ne _ _)
  revert h
  split
  · exact fun h => by cases h
  · exact grow_env

theorem insert_env {w : World} {i pos : Nat} {s : Src} {e : Env} (h : w.insert i pos s e = .error .env) :
    ∃ n c, w.srcLen i s = .ok n ∧ w.conts.find? i = some c ∧
      (2 ^ 63 ≤ max e.cap (c.size + n) ∨ w.free e.addr (max e.cap (c.size + n)) = false) := by
  rcases bind_env h with h | ⟨n, hn, h⟩
  · exact absurd h (srcLen_ne _ _ _)
  rcases bind_env h with h | ⟨c, hc, h⟩
  · exact absurd h (get_ne _ _)
  have hf : w.conts.find? i = some c := by
    cases hx : w.conts.find? i with
    | none => rw [get_none hx] at hc; cases hc
    | some d => rw [get_some hx] at hc; cases hc; rfl
  refine ⟨n, c, hn, hf, ?_⟩
  revert h
  split
  · exact fun h => by cases h
  intro h
  rcases bind_env h with h | ⟨w1, _, h⟩
  · rcases bind_env h with h | ⟨c', hc', h⟩
    · exact absurd h (get_ne _ _)
    rw [hc] at hc'; cases hc'
    revert h
    split
    · exact fun h => by cases h
    · exact grow_env
  rcases bind_env h with h | ⟨c1, _, h⟩
  · exact absurd h (get_ne _ _)
  rcases bind_env h with h | ⟨w2, _, h⟩
  · exact absurd h (move_ne _ _ _ _)
  rcases bind_env h with h | ⟨w3, _, h⟩
  · exact absurd h (fill_ne _ _ _)
  exact absurd h (setSize_ne _ _ _)

theorem assign_env {w : World} {i : Nat} {s : Src} {e : Env} (h : w.assign i s e = .error .env) :
    ∃ n c, w.srcLen i s = .ok n ∧ w.conts.find? i = some c ∧
      (2 ^ 63 ≤ n ∨ (w.setC i { c with size := 0 }).free e.addr n = false) := by
  rcases bind_env h with h | ⟨n, hn, h⟩
  · exact absurd h (srcLen_ne _ _ _)
  rcases bind_env h with h | ⟨w0, h0, h⟩
  · exact absurd h (setSize_ne _ _ _)
  cases hf : w.conts.find? i with
  | none => simp only [World.setSize, get_none hf, err_bind] at h0; cases h0
  | some c =>
    rw [setSize_some hf] at h0; cases h0
    refine ⟨n, c, hn, rfl, ?_⟩
    rcases bind_env h with h | ⟨w1, _, h⟩
    · exact reserve_env h
    rcases bind_env h with h | ⟨c1, _, h⟩
    · exact absurd h (get_ne _ _)
    rcases bind_env h with h | ⟨w2, _, h⟩
    · exact absurd h (fill_ne _ _ _)
    exact absurd h (setSize_ne _ _ _)

theorem below_setC {w : World} {M i : Nat} {c : Cont} (h : Below w M) (hc : c.a.base + 56 ≤ M) :
    Below (w.setC i c) M := by
  refine ⟨h.1, fun j d hd => ?_⟩
  rw [find_setC] at hd
  by_cases hj : j = i
  · rw [if_pos hj] at hd; cases hd; exact hc
  · rw [if_neg hj] at hd; exact h.2 j d hd

theorem maskLoop_ne (a b n : Nat) : ∀ (w : World) (k : Nat), w.maskLoop a b k n ≠ .error .env := by
  induction n with
  | zero => intro w k h; cases h
  | succ n ih =>
    intro w k h
    simp only [World.maskLoop] at h
    revert h
    split
    · intro h
      rcases bind_env h with h | ⟨w1, _, h⟩
      · exact put_ne _ _ _ h
      · exact ih _ _ h
    · exact fun h => by cases h

/-- Whatever the users may do, the environment can choose addresses for it. -/
theorem progress {w : World} {o : Op} {t : Spec.St} (ho : Spec.step w.bytes o = .ok t)
    (hs : ∀ i l, t i = some l → l.length < 2 ^ 63) (hr : ∀ i n, o = .reserve i n → n < 2 ^ 63) :
    ∃ e, w.step o e ≠ .error .env := by
  obtain ⟨M, hM⟩ := below_exists w
  refine ⟨{ addr := M + 56, cap := 0, base := M }, fun h => ?_⟩
  have ins : ∀ {i pos s}, w.insert i pos s { addr := M + 56, cap := 0, base := M } = .error .env →
      ∃ l bs, w.bytes i = some l ∧ Spec.src w.bytes i s = some bs ∧ 2 ^ 63 ≤ l.length + bs.length := by
    intro i pos s h
    obtain ⟨n, c, hn, hc, hx⟩ := insert_env h
    cases hb : Spec.src w.bytes i s with
    | none => rw [srcLen_none hb] at hn; cases hn
    | some bs =>
      rw [srcLen_some hb] at hn; cases hn
      refine ⟨_, bs, bytes_some hc, rfl, ?_⟩
      simp only [List.length_map, List.length_range]
      rcases hx with hx | hx
      · simp only at hx; omega
      · rw [hM.free (by simp)] at hx; cases hx
  cases o with
  | new i k =>
    simp only [World.step] at h
    cases hc : w.conts.find? i with
    | some c =>
      have e1 : w.born i { addr := M + 56, cap := 0, base := M } = .error .ub := by simp [World.born, hc]
      revert h
      cases k <;> simp only [World.new, e1, err_bind] <;> exact fun h => by cases h
    | none =>
      have hb : w.bytes i = none := bytes_none.2 hc
      have e1 : w.born i { addr := M + 56, cap := 0, base := M } = .ok (w.setC i { a := Arena.mk' S 1 M }) := by
        simp [World.born, hc, hM.free (Nat.le_refl M)]
      have hM1 : Below (w.setC i { a := Arena.mk' S 1 M }) (M + 56) :=
        below_setC ⟨fun b hb => by have := hM.1 b hb; omega, fun j c hc => by have := hM.2 j c hc; omega⟩
          (Nat.le_refl _)
      have bb : (w.setC i { a := Arena.mk' S 1 M }).bytes = Spec.upd w.bytes i (some []) := by
        funext j
        simp only [World.bytes, find_setC, Spec.upd]
        by_cases hj : j = i
        · simp [hj]
        · simp [hj]
      have asg : ∀ {s}, (w.setC i { a := Arena.mk' S 1 M }).assign i s { addr := M + 56, cap := 0, base := M } = .error .env →
          ∃ bs, Spec.src w.bytes i s = some bs ∧ 2 ^ 63 ≤ bs.length := by
        intro s h
        obtain ⟨n, c, hn, hc', hx⟩ := assign_env h
        cases hb : Spec.src w.bytes i s with
        | none =>
          rw [srcLen_none (by rw [bb, src_upd]; exact hb)] at hn; cases hn
        | some bs =>
          rw [srcLen_some (bs := bs) (by rw [bb, src_upd]; exact hb)] at hn; cases hn
          refine ⟨bs, rfl, ?_⟩
          rcases hx with hx | hx
          · exact hx
          · rw [find_setC, if_pos rfl] at hc'; cases hc'
            rw [(below_setC hM1 (Nat.le_refl _)).free (Nat.le_refl _)] at hx; cases hx
      cases k with
      | empty =>
        simp only [World.new, e1, ok_bind] at h
        rcases reserve_env h with hx | hx
        · exact absurd hx (by decide)
        · rw [hM1.free (Nat.le_refl _)] at hx; cases hx
      | fill n x =>
        simp only [World.new, e1, ok_bind] at h
        obtain ⟨bs, hb1, hb2⟩ := asg h
        simp only [Spec.step, hb] at ho
        cases ho
        have := hs i (List.replicate n x) (by simp [Spec.upd])
        simp only [Spec.src, Option.some.injEq] at hb1
        rw [← hb1] at hb2
        omega
      | copy s =>
        simp only [World.new, e1, ok_bind] at h
        obtain ⟨bs, hb1, hb2⟩ := asg h
        simp only [Spec.step, hb, hb1] at ho
        cases ho
        have := hs i bs (by simp [Spec.upd])
        omega
  | destroy i =>
    rcases bind_env h with h | ⟨c, _, h⟩
    · exact get_ne _ _ h
    rcases bind_env h with h | ⟨w1, _, h⟩
    · exact release_ne _ _ _ _ h
    · cases h
  | assign i j =>
    obtain ⟨n, c, hn, hc, hx⟩ := assign_env h
    cases hb : Spec.src w.bytes i (.cont j) with
    | none => rw [srcLen_none hb] at hn; cases hn
    | some bs =>
      rw [srcLen_some hb] at hn; cases hn
      simp only [Spec.step, bytes_some hc, hb] at ho
      cases ho
      have := hs i bs (by simp [Spec.upd])
      rcases hx with hx | hx
      · omega
      · have hb' : Below (w.setC i { c with size := 0 }) M := below_setC hM (hM.2 i c hc)
        rw [hb'.free (Nat.le_add_right M 56)] at hx; cases hx
  | insert i pos s =>
    obtain ⟨l, bs, h1, h2, h3⟩ := ins h
    simp only [Spec.step, h1, h2] at ho
    by_cases hp : pos ≤ l.length
    · rw [if_pos hp] at ho
      cases ho
      have := hs i (Spec.splice l pos bs) (by simp [Spec.upd])
      simp only [Spec.splice, List.length_append, List.length_take, List.length_drop] at this
      omega
    · rw [if_neg hp] at ho; cases ho
  | append i s =>
    simp only [World.step] at h
    rcases bind_env h with h | ⟨c, _, h⟩
    · exact get_ne _ _ h
    obtain ⟨l, bs, h1, h2, h3⟩ := ins h
    simp only [Spec.step, h1, h2] at ho
    cases ho
    have := hs i (l ++ bs) (by simp [Spec.upd])
    simp only [List.length_append] at this
    omega
  | push i x =>
    simp only [World.step] at h
    rcases bind_env h with h | ⟨c, _, h⟩
    · exact get_ne _ _ h
    obtain ⟨l, bs, h1, h2, h3⟩ := ins h
    simp only [Spec.src, Option.some.injEq] at h2
    simp only [Spec.step, h1] at ho
    cases ho
    have := hs i (l ++ [x]) (by simp [Spec.upd])
    rw [h2] at this
    simp only [List.length_append] at this
    omega
  | set i n x =>
    rcases bind_env h with h | ⟨c, _, h⟩
    · exact get_ne _ _ h
    revert h
    split
    · exact fun h => put_ne _ _ _ h
    · exact fun h => by cases h
  | clear i => exact setSize_ne _ _ _ h
  | reserve i n =>
    have := hr i n rfl
    rcases reserve_env h with hx | hx
    · omega
    · rw [hM.free (by simp)] at hx; cases hx
  | resize i n x =>
    rcases bind_env h with h | ⟨c, hc, h⟩
    · exact get_ne _ _ h
    revert h
    split
    · exact fun h => setSize_ne _ _ _ h
    · intro h
      obtain ⟨l, bs, h1, h2, h3⟩ := ins h
      obtain ⟨c', hc'⟩ := found h1
      rw [get_some hc'] at hc; cases hc
      have hl := size_eq hc' h1
      simp only [Spec.src, Option.some.injEq] at h2
      rw [← h2, List.length_replicate] at h3
      simp only [Spec.step, h1] at ho
      cases ho
      have := hs i (l.take n ++ List.replicate (n - l.length) x) (by simp [Spec.upd])
      simp only [List.length_append, List.length_take, List.length_replicate] at this
      omega
  | mask i j =>
    rcases bind_env h with h | ⟨c, _, h⟩
    · exact get_ne _ _ h
    rcases bind_env h with h | ⟨d, _, h⟩
    · exact get_ne _ _ h
    revert h
    split
    · exact fun h => maskLoop_ne _ _ _ _ _ h
    · exact fun h => by cases h

end Bm.ByteCont
