import Verif.Lemmas.ByteContStable

/-!
# C110: byte containers are lists of bytes, and their memory is safe
-/

namespace Bm.ByteCont

/-- What a client of an arena may see after any number of requests: it never gives back what it does not hold, and
asks for sizes which can be rounded up. -/
inductive Reach (a : Arena) : Client → Prop
  | init : Reach a { a := a }
  | get {s s' : Client} (n q : Nat) : Reach a s → n + a.al ≤ 2 ^ 64 → s.step (.get n q) = .ok s' → Reach a s'
  | give {s s' : Client} (p n : Nat) : Reach a s → s.step (.give p n) = .ok s' → Reach a s'

/-- **C110**.  After any operations on any containers: the next operation does to the lists of bytes what its users
expect; it fails only as they expect (a container used as its own source or used out of its lifetime, a position
after the end: undefined; an index too big, masks of another size: an assertion).  It never touches storage it does
not have, and no assertion of the arena fails.  All this for all capacities the vectors choose and all addresses the
environment may choose. -/
theorem C110_lists {l : List (Op × Env)} {w : World} (h : World.run {} l = .ok w) (o : Op) (e : Env)
    (he : w.step o e ≠ .error .env) :
    (w.step o e).map World.bytes = Spec.step w.bytes o := by
  have := step_ok (inv_run l inv_init h) o e he
  revert this
  cases w.step o e with
  | error f =>
    cases Spec.step w.bytes o with
    | error g => intro x; cases x; rfl
    | ok t => exact fun x => x.elim
  | ok w' =>
    cases Spec.step w.bytes o with
    | error g => exact fun x => x.elim
    | ok t => intro x; exact congrArg Except.ok x.2

/-- The environment can always choose: an operation its users may do can be done (for sizes below `max_size()`). -/
theorem C110_progress {l : List (Op × Env)} {w : World} (h : World.run {} l = .ok w) {o : Op} {t : Spec.St}
    (ho : Spec.step w.bytes o = .ok t) (hs : ∀ i b, t i = some b → b.length < 2 ^ 63)
    (hr : ∀ i n, o = .reserve i n → n < 2 ^ 63) : ∃ e w', w.step o e = .ok w' ∧ w'.bytes = t := by
  obtain ⟨e, he⟩ := progress ho hs hr
  have hl := C110_lists h o e he
  rw [ho] at hl
  cases hw : w.step o e with
  | error f => rw [hw] at hl; cases hl
  | ok w' =>
    rw [hw] at hl
    exact ⟨e, w', hw, Except.ok.inj hl⟩

/-- The storage of a container is in its own object or in one block of `operator new` which is not deleted; it
overlaps neither the storage of another container nor the other parts of any container object. -/
theorem C110_storage {l : List (Op × Env)} {w : World} (h : World.run {} l = .ok w) {i : Nat} {c : Cont}
    (hc : w.conts.find? i = some c) :
    c.size ≤ c.cap ∧
    (0 < c.cap → (c.a.base ≤ c.start ∧ c.start + c.cap ≤ c.a.base + 16) ∨ (c.start, c.cap) ∈ w.heap) ∧
    (∀ j d, j ≠ i → w.conts.find? j = some d →
      Spec.Apart c.start c.cap d.start d.cap ∧ Spec.Apart c.start c.cap d.a.base 56) ∧
    Spec.Apart c.start c.cap (c.a.base + 16) 40 := by
  have hw := inv_run l inv_init h
  have ha := hw.b.ar i c hc
  have hin : 0 < c.cap → (c.a.base ≤ c.start ∧ c.start + c.cap ≤ c.a.ptr) ∨ (c.start, c.cap) ∈ w.heap := by
    intro h0
    obtain ⟨_, c', hc', hx⟩ := hw.b.inn _ _ _ (hw.block hc h0)
    rw [hc] at hc'; cases hc'
    exact hx
  refine ⟨(hw.sz i c hc).1, fun h0 => ?_, fun j d hj hd => ⟨fun x hx => ?_, fun x hx => ?_⟩, fun x hx => ?_⟩
  · rcases hin h0 with hx | hx
    · left; omega
    · exact .inr hx
  · have := hw.apart hc hd (Ne.symm hj) (by omega) (by omega)
    omega
  · rcases hin (by omega) with hy | hy
    · have := hw.b.obj i j c d hc hd (Ne.symm hj)
      omega
    · have := hw.b.hobj _ hy j d hd
      simp only at this
      omega
  · rcases hin (by omega) with hy | hy
    · omega
    · have := hw.b.hobj _ hy i c hc
      simp only at this
      omega

/-- Nothing leaks: every block of `operator new` is the storage of a container, and no two are of the same one. -/
theorem C110_leaks {l : List (Op × Env)} {w : World} (h : World.run {} l = .ok w) :
    (∀ b ∈ w.heap, ∃ i c, w.conts.find? i = some c ∧ (c.start, c.cap) = b) ∧ w.heap.Nodup ∧
    ((∀ i, w.bytes i = none) → w.heap = []) := by
  have hw := inv_run l inv_init h
  have own : ∀ b ∈ w.heap, ∃ i c, w.conts.find? i = some c ∧ (c.start, c.cap) = b := by
    intro b hb
    obtain ⟨i, c, hc, h1, h2, _⟩ := hw.b.own b.1 b.2 hb
    exact ⟨i, c, hc, by rw [h1, h2]⟩
  refine ⟨own, ?_, fun hn => ?_⟩
  · refine hw.b.hp.imp ?_
    intro b d hx e
    subst e
    omega
  · refine List.eq_nil_iff_forall_not_mem.2 fun b hb => ?_
    obtain ⟨i, c, hc, _⟩ := own b hb
    have := hn i
    rw [bytes_none, hc] at this
    cases this

/-- Storage does not move while the bytes fit: pointers and iterators stay valid, whatever is done to this container
and to the others. -/
theorem C110_stable {l : List (Op × Env)} {w w' : World} (h : World.run {} l = .ok w) {o : Op} {e : Env}
    (hs : w.step o e = .ok w') {i : Nat} {c c' : Cont} (hc : w.conts.find? i = some c)
    (hc' : w'.conts.find? i = some c') (hn : c'.size ≤ c.cap) (hr : ∀ n, o = .reserve i n → n ≤ c.cap) :
    c'.start = c.start ∧ c'.cap = c.cap :=
  step_stable (inv_run l inv_init h) hs hc hc' hn hr

/-- `reserve` makes room. -/
theorem C110_reserve {l : List (Op × Env)} {w w' : World} (h : World.run {} l = .ok w) {i n : Nat} {e : Env}
    (hs : w.step (.reserve i n) e = .ok w') : ∃ c, w'.conts.find? i = some c ∧ n ≤ c.cap := by
  have hw := inv_run l inv_init h
  simp only [World.step] at hs
  cases hc : w.conts.find? i with
  | none => simp only [World.reserve, get_none hc, err_bind] at hs; cases hs
  | some c =>
    obtain ⟨w1, c1, e1, r, hcap, _⟩ := reserve_ok hw hc (by rw [hs]; exact fun x => by cases x)
    rw [hs] at e1; cases e1
    exact ⟨c1, r.find, hcap⟩

/-- A container which starts empty holds 16 bytes in its own object: nothing is taken from `operator new`. -/
theorem C110_small {l : List (Op × Env)} {w w' : World} (h : World.run {} l = .ok w) {i : Nat} {e : Env}
    (hs : w.step (.new i .empty) e = .ok w') :
    w'.heap = w.heap ∧ ∃ c, w'.conts.find? i = some c ∧ c.start = e.base ∧ c.a.base = e.base ∧ c.cap = 16 := by
  have hw := inv_run l inv_init h
  simp only [World.step, World.new] at hs
  obtain ⟨v, hv, hs⟩ := bind_ok hs
  cases hc : w.conts.find? i with
  | some c => simp [World.born, hc] at hv
  | none =>
    obtain ⟨_, v', hv', rfl, _⟩ := born_ok hw hc (by rw [hv]; exact fun x => by cases x)
    rw [hv] at hv'; cases hv'
    have f0 : (w.setC i { a := Arena.mk' S 1 e.base }).conts.find? i = some { a := Arena.mk' S 1 e.base } := by
      rw [find_setC, if_pos rfl]
    have hb : (Arena.mk' S 1 e.base).allocate S =
        some (some (e.base, { N := S, al := 1, base := e.base, ptr := e.base + S })) := by
      simp only [Arena.allocate, Arena.mk', Arena.inBuf, Nat.le_refl, decide_true, Nat.le_add_right, Bool.and_self,
        if_true, alignUp_one (show S < 2 ^ 64 by decide), Nat.add_sub_cancel_left]
    have hS : ¬S ≤ 0 := by decide
    have h63 : ¬2 ^ 63 ≤ S := by decide
    simp only [World.reserve, get_some f0, ok_bind, if_neg hS, World.grow, World.alloc, if_neg h63, hb, World.move,
      valid_zero, Bool.and_self, if_true, World.release] at hs
    have f1 : ∀ v : World, v.conts = ((w.setC i { a := Arena.mk' S 1 e.base }).setC i
        { a := ⟨S, 1, e.base, e.base + S⟩ }).conts → v.get i = .ok { a := ⟨S, 1, e.base, e.base + S⟩ } := by
      intro v hv
      apply get_some
      rw [hv, find_setC, if_pos rfl]
    obtain ⟨c3, h3, hs⟩ := bind_ok hs
    cases h3.symm.trans (f1 _ rfl)
    cases hs
    refine ⟨rfl, _, by rw [find_setC, if_pos rfl], rfl, rfl, rfl⟩

/-- **The arena**, for any size and any alignment, and any user.  No assertion fails; the user only has to give back
what it holds.  The blocks it holds do not overlap, those in the buffer lie in it and are aligned, all the others are
blocks of `operator new`, and these are exactly the blocks of `operator new` which are in use. -/
theorem C110_arena {N al base : Nat} (hal : 0 < al) {s : Client} (h : Reach (Arena.mk' N al base) s) :
    (∀ r, s.step r = .error .abort → False) ∧
    (∀ p n, s.step (.give p n) = .error .ub ↔ (p, n) ∉ s.held) ∧
    (s.held.Pairwise fun b d => Spec.Apart b.1 b.2 d.1 d.2) ∧
    (∀ b ∈ s.held, (base ≤ b.1 ∧ b.1 + b.2 ≤ base + N ∧ (b.1 - base) % al = 0) ∨ b ∈ s.heap) ∧
    (∀ b ∈ s.heap, b ∈ s.held) ∧ s.heap.Nodup := by
  have key : CInv s ∧ s.a.N = N ∧ s.a.al = al ∧ s.a.base = base := by
    induction h with
    | init =>
      refine ⟨⟨hal, ⟨Nat.le_refl _, Nat.le_add_right _ _⟩, ?_, ?_, .nil, rfl, ?_, .nil⟩, rfl, rfl, rfl⟩
      · simp [Arena.mk']
      · intro b hb; cases hb
      · intro b hb; cases hb
    | get n q _ hn hs ih =>
      obtain ⟨ih, i1, i2, i3⟩ := ih
      rcases get_step ih (n := n) (q := q) (by rw [i2]; exact hn) with hx | ⟨s', p, hx, hc, _, e1, e2, e3⟩
      · rw [hs] at hx; cases hx
      · rw [hs] at hx; cases hx
        exact ⟨hc, e1.trans i1, e2.trans i2, e3.trans i3⟩
    | @give s s' p n _ hs ih =>
      obtain ⟨ih, i1, i2, i3⟩ := ih
      by_cases hm : (p, n) ∈ s.held
      · obtain ⟨s', hx, hc, _, e1, e2, e3⟩ := give_step ih hm
        rw [hs] at hx; cases hx
        exact ⟨hc, e1.trans i1, e2.trans i2, e3.trans i3⟩
      · simp only [Client.step, if_neg hm] at hs; cases hs
  obtain ⟨hi, e1, e2, e3⟩ := key
  have hin : s.a.inBuf s.a.ptr = true := by
    have := hi.ptr
    simp only [Arena.inBuf, Bool.and_eq_true, decide_eq_true_eq]; omega
  have hcase : ∀ b ∈ s.held, (s.a.inBuf b.1 = true ∧ b.1 + b.2 ≤ base + N) ∨ (s.a.inBuf b.1 = false ∧ b ∈ s.heap) := by
    intro b hb
    cases hx : s.a.inBuf b.1 with
    | true =>
      obtain ⟨g1, g2, _⟩ := hi.held b hb hx
      have := (alignUp_ge hi.al g1).1
      exact .inl ⟨rfl, by omega⟩
    | false => exact .inr ⟨rfl, by rw [hi.heap]; exact List.mem_filter.2 ⟨hb, by rw [hx]; rfl⟩⟩
  have hpair : s.heap.Nodup := hi.hp.imp fun {b d} hx e => by subst e; omega
  refine ⟨?_, ?_, ?_, ?_, ?_, hpair⟩
  · intro r hr
    cases r with
    | get n q =>
      simp only [Client.step, Arena.allocate, hin, if_true] at hr
      split at hr
      · rename_i hx; split at hx <;> cases hx
      · cases hr
      · split at hr <;> cases hr
    | give p n =>
      by_cases hm : (p, n) ∈ s.held
      · obtain ⟨s', hx, _⟩ := give_step hi hm
        rw [hx] at hr; cases hr
      · simp only [Client.step, if_neg hm] at hr; cases hr
  · intro p n
    by_cases hm : (p, n) ∈ s.held
    · obtain ⟨s', hx, _⟩ := give_step hi hm
      rw [hx]
      exact ⟨fun x => (by cases x), fun x => absurd hm x⟩
    · simp only [Client.step, if_neg hm]
      exact ⟨fun _ => hm, fun _ => trivial⟩
  · have : s.held.Pairwise fun b d => (s.a.inBuf b.1 = false → s.a.inBuf d.1 = false →
        b.1 + max b.2 1 ≤ d.1 ∨ d.1 + max d.2 1 ≤ b.1) := by
      have := hi.hp
      rw [hi.heap, List.pairwise_filter] at this
      refine this.imp fun {b d} hx h1 h2 => hx (by rw [h1]; rfl) (by rw [h2]; rfl)
    refine List.Pairwise.imp_of_mem ?_ (hi.pw.and this)
    rintro b d hb hd ⟨p1, p2⟩ x hx
    rcases hcase b hb with ⟨c1, c2⟩ | ⟨c1, c2⟩ <;> rcases hcase d hd with ⟨d1, d2⟩ | ⟨d1, d2⟩
    · have := p1 c1 d1
      have u1 := (alignUp_ge hi.al (hi.held b hb c1).1).1
      have u2 := (alignUp_ge hi.al (hi.held d hd d1).1).1
      omega
    · have := hi.hobj d d2
      simp only [Arena.inBuf, Bool.and_eq_true, decide_eq_true_eq] at c1
      omega
    · have := hi.hobj b c2
      simp only [Arena.inBuf, Bool.and_eq_true, decide_eq_true_eq] at d1
      omega
    · have := p2 c1 d1
      omega
  · intro b hb
    rcases hcase b hb with ⟨c1, c2⟩ | ⟨c1, c2⟩
    · left
      obtain ⟨_, _, g3, _⟩ := hi.held b hb c1
      simp only [Arena.inBuf, Bool.and_eq_true, decide_eq_true_eq] at c1
      rw [e3, e2] at g3
      exact ⟨by omega, c2, g3⟩
    · exact .inr c2
  · intro b hb
    rw [hi.heap] at hb
    exact (List.mem_filter.1 hb).1

/-! ## Concrete runs -/

deriving instance DecidableEq for Except

/-- Two containers, one of which outgrows its object: it goes to `operator new` (address 1000) and is deleted. -/
def tour : List (Op × Env) :=
  [(.new 0 .empty, { base := 100 }),
   (.append 0 (.raw [1, 2, 3]), {}),
   (.new 1 (.copy (.cont 0)), { base := 200 }),
   (.insert 1 1 (.cont 0), { cap := 6 }),
   (.resize 0 17 9, { cap := 32, addr := 1000 }),
   (.set 0 0 7, {}),
   (.new 2 (.fill 6 0x0f), { base := 300 }),
   (.mask 1 2, {}),
   (.destroy 2, {}),
   (.append 1 (.raw [0xaa]), { cap := 12, addr := 2000 })]

/-- The bytes, the blocks of `operator new`, and the place of the storage of each container. -/
def look (w : World) (i : Nat) : Option (Bytes × List (Nat × Nat) × Nat × Nat) :=
  (w.conts.find? i).map fun c => ((List.range c.size).map fun k => w.mem (c.start + k), w.heap, c.start, c.cap)

example : ((World.run {} tour).map fun w => look w 0) =
    .ok (some ([7, 2, 3, 9, 9, 9, 9, 9, 9, 9, 9, 9, 9, 9, 9, 9, 9], [(2000, 12), (1000, 32)], 1000, 32)) := by
  decide +kernel

example : ((World.run {} tour).map fun w => look w 1) =
    .ok (some ([1, 1, 2, 3, 2, 3, 0xaa], [(2000, 12), (1000, 32)], 2000, 12)) := by decide +kernel

example : ((World.run {} tour).map fun w => look w 2) = .ok none := by decide +kernel

/-- Everything destroyed: no block is left. -/
example : ((World.run {} (tour ++ [(.destroy 0, { addr := 0 }), (.destroy 1, { addr := 0 })])).map fun w => w.heap) = .ok [] := by
  decide +kernel

/-- A mask of another size. -/
example : ((World.run {} (tour ++ [(.mask 0 1, { addr := 0 })])).map fun w => w.heap) = .error .abort := by decide +kernel

/-- A container as its own source. -/
example : ((World.run {} (tour ++ [(.append 0 (.cont 0), { addr := 0 })])).map fun w => w.heap) = .error .ub := by decide +kernel

/-- The arena for 4 locks of 16 bytes. -/
def locks (p : Nat) : Arena := ⟨64, 8, 5000, p⟩

/-- The locks of an action: a vector which doubles its capacity takes room for 1, 2, and 8 locks. -/
example : Reach (Arena.mk' 64 8 5000) ⟨locks 5016, [(9000, 128)], [(9000, 128)]⟩ := by
  have h1 := Reach.get (s' := ⟨locks 5016, [(5000, 16)], []⟩) 16 0
    (Reach.init (a := Arena.mk' 64 8 5000)) (by decide) (by rfl)
  have h2 := Reach.get (s' := ⟨locks 5048, [(5016, 32), (5000, 16)], []⟩) 32 0 h1 (by decide) (by rfl)
  have h3 := Reach.give (s' := ⟨locks 5048, [(5016, 32)], []⟩) 5000 16 h2 (by rfl)
  have h4 := Reach.get (s' := ⟨locks 5048, [(9000, 128), (5016, 32)], [(9000, 128)]⟩) 128 9000 h3 (by decide) (by rfl)
  exact Reach.give (s' := ⟨locks 5016, [(9000, 128)], [(9000, 128)]⟩) 5016 32 h4 (by rfl)

/-! ## What does not hold -/

/-- **Small containers may use `operator new`.**  A container made with 5 bytes and filled to 11 bytes takes a block
of 20 bytes from `operator new`, although its object has room for 16: the block for 5 bytes and the block for 10 stay
in the arena side by side. -/
theorem C110_refuted_small :
    ((World.run {} ([(.new 0 (.fill 5 1), { base := 100 })] ++
      List.replicate 5 (.push 0 2, { cap := 10 }) ++ [(.push 0 3, { cap := 20, addr := 1000 })])).map
        fun w => look w 0) =
    .ok (some ([1, 1, 1, 1, 1, 2, 2, 2, 2, 2, 3], [(1000, 20)], 1000, 20)) := by decide +kernel

/-- **Rounding up wraps around.**  An arena with an alignment above 1 which is asked for nearly 2^64 bytes returns a
block of its buffer, without room for a single byte. -/
theorem C110_refuted_align : (Arena.mk' 64 8 5000).allocate (2 ^ 64 - 1) =
    some (some (5000, Arena.mk' 64 8 5000)) := by decide +kernel

/-- **A container assigned to itself is its own source.**  `operator=` does not look whether the other container is
the same one; `vector::assign` requires that it is not. -/
theorem C110_refuted_self {l : List (Op × Env)} {w : World} (_ : World.run {} l = .ok w) (i : Nat) (e : Env) :
    w.step (.assign i i) e = .error .ub := by
  simp [World.step, World.assign, World.srcLen]

end Bm.ByteCont
