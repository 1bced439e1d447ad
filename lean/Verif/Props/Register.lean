import Verif.Spec.Register
import Verif.Lemmas.Field

/-!
# C48: registers
-/

namespace Bm.Reg

theorem mask_eq (w : Nat) (v : Int) : mask w v = v % 2 ^ w := by
  exact Data.land_mask v w

/-- The arrays have their size and width, and the contents wanted. -/
def Agrees (d : Decl) (f : Nat → Nat → Int) (c : Ctx) : Prop :=
  ∀ n, (d n = none → c n = none) ∧ ∀ size w, d n = some (size, w) →
    ∃ a, c n = some a ∧ a.width = w ∧ a.cells.length = size ∧ ∀ i v, a.cells[i]? = some v → v = f n i

theorem agrees_start (d : Decl) : Agrees d (fun _ _ => 0) d.start := by
  intro n
  refine ⟨fun h => by simp [Decl.start, h], fun size w h => ⟨.mk' size w, by simp [Decl.start, h], rfl,
    by simp [Arr.mk'], ?_⟩⟩
  intro i v hv
  simp only [Arr.mk', List.getElem?_replicate] at hv
  split at hv
  · cases hv; rfl
  · cases hv

theorem Agrees.put {d : Decl} {f g : Nat → Nat → Int} {c : Ctx} (h : Agrees d f c) {n size w : Nat} {a : Arr}
    (hd : d n = some (size, w)) (hw : a.width = w) (hs : a.cells.length = size)
    (hc : ∀ i v, a.cells[i]? = some v → v = g n i) (hg : ∀ m, m ≠ n → ∀ i, g m i = f m i) :
    Agrees d g (c.put n a) := by
  intro m
  by_cases hm : m = n
  · subst hm
    refine ⟨fun h => (by rw [hd] at h; simp at h), fun s' w' h' => ?_⟩
    rw [hd] at h'
    cases h'
    exact ⟨a, by simp [Ctx.put], hw, hs, hc⟩
  · obtain ⟨h1, h2⟩ := h m
    refine ⟨fun h' => by simp [Ctx.put, hm, h1 h'], fun s' w' h' => ?_⟩
    obtain ⟨b, b1, b2, b3, b4⟩ := h2 s' w' h'
    exact ⟨b, by simp [Ctx.put, hm, b1], b2, b3, fun i v hv => by rw [hg m hm, b4 i v hv]⟩

theorem Agrees.congr {d : Decl} {f g : Nat → Nat → Int} {c : Ctx} (h : Agrees d f c)
    (hg : ∀ n size w i, d n = some (size, w) → i < size → g n i = f n i) : Agrees d g c := by
  intro n
  obtain ⟨h1, h2⟩ := h n
  refine ⟨h1, fun size w hd => ?_⟩
  obtain ⟨a, a1, a2, a3, a4⟩ := h2 size w hd
  refine ⟨a, a1, a2, a3, fun i v hv => ?_⟩
  have := (List.getElem?_eq_some_iff.1 hv).1
  rw [hg n size w i hd (by omega)]
  exact a4 i v hv

theorem setRange_spec {v : Int} : ∀ {k : Nat} {a b : Arr} {idx : Nat}, a.setRange v idx k = some b →
    b.width = a.width ∧ b.cells.length = a.cells.length ∧
    ∀ i, b.cells[i]? = if idx ≤ i ∧ i < idx + k then some (v % 2 ^ a.width) else a.cells[i]?
  | 0, a, b, idx, h => by
    cases h
    refine ⟨rfl, rfl, fun i => ?_⟩
    rw [if_neg (by omega)]
  | k + 1, a, b, idx, h => by
    simp only [Arr.setRange] at h
    obtain ⟨a1, h1, h⟩ := Option.bind_eq_some_iff.1 h
    obtain ⟨e1, e2, e3⟩ := setRange_spec h
    unfold Arr.set at h1
    split at h1
    · rename_i hlt
      cases h1
      simp only [List.length_set] at e1 e2 e3
      refine ⟨e1, e2, fun i => ?_⟩
      rw [e3 i]
      by_cases hi : i = idx
      · subst hi
        rw [if_neg (by omega), if_pos (by omega)]
        simp [hlt, mask_eq]
      · rw [List.getElem?_set_ne (Ne.symm hi)]
        by_cases hc : idx + 1 ≤ i ∧ i < idx + 1 + k
        · rw [if_pos hc, if_pos (by omega)]
        · rw [if_neg hc, if_neg (by omega)]
    · cases h1

theorem exec_agrees {d : Decl} {f : Nat → Nat → Int} {c c' : Ctx} (h : Agrees d f c) {r : Req}
    (e : c.exec r = some c') : Agrees d (want1 d f r) c' := by
  cases r with
  | write n idx v =>
    simp only [Ctx.exec, Ctx.write] at e
    cases hd : d n with
    | none =>
      rw [(h n).1 hd] at e
      cases e
      exact h.congr fun m s w i _ _ => by simp [want1, hd]
    | some p =>
      obtain ⟨size, w⟩ := p
      obtain ⟨a, a1, a2, a3, a4⟩ := (h n).2 size w hd
      rw [a1] at e
      simp only at e
      split at e
      · rename_i hge
        cases e
        exact h.congr fun m s w' i _ _ => by
          simp only [want1, hd]
          rw [if_neg (by omega)]
      · rename_i hlt
        simp only [Arr.set, if_pos (Nat.not_le.1 hlt), Option.map_some, Option.some.injEq] at e
        subst e
        refine h.put hd a2 (by simp [a3]) (fun i x hx => ?_) (fun m hm i => by simp [want1, hd, hm])
        simp only [want1, hd]
        by_cases hi : i = idx
        · subst hi
          rw [if_pos ⟨trivial, rfl, by omega⟩]
          rw [List.getElem?_set_self (by omega)] at hx
          cases hx
          rw [mask_eq, a2]
        · rw [if_neg (by omega)]
          rw [List.getElem?_set_ne (Ne.symm hi)] at hx
          exact a4 i x hx
  | writeRange n start stop v =>
    simp only [Ctx.exec, Ctx.writeRange] at e
    cases hd : d n with
    | none =>
      rw [(h n).1 hd] at e
      cases e
      exact h.congr fun m s w i _ _ => by simp [want1, hd]
    | some p =>
      obtain ⟨size, w⟩ := p
      obtain ⟨a, a1, a2, a3, a4⟩ := (h n).2 size w hd
      rw [a1] at e
      simp only at e
      split at e
      · rename_i hge
        cases e
        exact h.congr fun m s w' i _ _ => by
          simp only [want1, hd]
          rw [if_neg (by omega)]
      · rename_i hlt
        simp only [Option.map_map, Option.map_eq_some_iff] at e
        obtain ⟨b, hb, e⟩ := e
        simp only [Function.comp] at e
        subst e
        obtain ⟨b1, b2, b3⟩ := setRange_spec hb
        refine h.put hd (b1.trans a2) (b2.trans a3) (fun i x hx => ?_) (fun m hm i => by simp [want1, hd, hm])
        simp only [want1, hd]
        rw [b3] at hx
        by_cases hr : start ≤ i ∧ i < start + (stop - start)
        · rw [if_pos hr] at hx
          rw [if_pos ⟨trivial, by omega, by omega, by omega⟩]
          cases hx
          rw [a2]
        · rw [if_neg hr] at hx
          rw [if_neg (by omega)]
          exact a4 i x hx
  | reset n =>
    simp only [Ctx.exec, Ctx.reset, Option.some.injEq] at e
    cases hd : d n with
    | none =>
      rw [(h n).1 hd] at e
      subst e
      exact h.congr fun m s w i hm _ => by
        simp only [want1]
        rw [if_neg (by rintro rfl; rw [hd] at hm; cases hm)]
    | some p =>
      obtain ⟨size, w⟩ := p
      obtain ⟨a, a1, a2, a3, a4⟩ := (h n).2 size w hd
      rw [a1] at e
      subst e
      refine h.put hd a2 (by simp [Arr.reset, a3]) (fun i x hx => ?_) (fun m hm i => by simp [want1, hm])
      simp only [Arr.reset, List.getElem?_replicate] at hx
      split at hx
      · cases hx; simp [want1]
      · cases hx
  | update n idx g =>
    simp only [Ctx.exec, Ctx.update] at e
    cases hd : d n with
    | none =>
      rw [(h n).1 hd] at e
      cases e
    | some p =>
      obtain ⟨size, w⟩ := p
      obtain ⟨a, a1, a2, a3, a4⟩ := (h n).2 size w hd
      rw [a1] at e
      simp only [Option.bind_eq_bind, Option.pure_def] at e
      obtain ⟨x, hx, e⟩ := Option.bind_eq_some_iff.1 e
      obtain ⟨v, hv, e⟩ := Option.bind_eq_some_iff.1 e
      obtain ⟨b, hb, e⟩ := Option.bind_eq_some_iff.1 e
      cases e
      have hlt := (List.getElem?_eq_some_iff.1 hx).1
      simp only [Arr.set, if_pos hlt, Option.some.injEq] at hb
      subst hb
      rw [a4 idx x hx] at hv
      refine h.put hd a2 (by simp [a3]) (fun i y hy => ?_) (fun m hm i => by simp [want1, hd, hv, hm])
      simp only [want1, hd, hv]
      by_cases hi : i = idx
      · subst hi
        rw [if_pos ⟨trivial, rfl⟩]
        rw [List.getElem?_set_self hlt] at hy
        cases hy
        rw [mask_eq, a2]
      · rw [if_neg (by omega)]
        rw [List.getElem?_set_ne (Ne.symm hi)] at hy
        exact a4 i y hy

theorem run_agrees {d : Decl} : ∀ (rs : List Req) {f : Nat → Nat → Int} {c c' : Ctx}, Agrees d f c →
    c.run rs = some c' → Agrees d (rs.foldl (want1 d) f) c'
  | [], _, _, _, h, e => by cases e; exact h
  | r :: rs, _, _, _, h, e => by
    simp only [Ctx.run] at e
    obtain ⟨c1, h1, e⟩ := Option.bind_eq_some_iff.1 e
    exact run_agrees rs (exec_agrees h h1) e

theorem want_range (d : Decl) : ∀ (rs : List Req) {f : Nat → Nat → Int} {n size w i : Nat},
    d n = some (size, w) → 0 ≤ f n i → f n i < 2 ^ w →
    0 ≤ rs.foldl (want1 d) f n i ∧ rs.foldl (want1 d) f n i < 2 ^ w
  | [], _, _, _, _, _, _, h0, h1 => ⟨h0, h1⟩
  | r :: rs, f, n, size, w, i, hd, h0, h1 => by
    have hp : (0 : Int) < 2 ^ w := Int.pow_pos (by omega)
    have key : ∀ v : Int, 0 ≤ v % 2 ^ w ∧ v % 2 ^ w < 2 ^ w := fun v =>
      ⟨Int.emod_nonneg _ (by omega), Int.emod_lt_of_pos _ hp⟩
    rw [List.foldl_cons]
    have : 0 ≤ want1 d f r n i ∧ want1 d f r n i < 2 ^ w := by
      cases r with
      | write m idx v =>
        simp only [want1]
        cases hm : d m with
        | none => exact ⟨h0, h1⟩
        | some p =>
          simp only
          split
          · rename_i hc
            obtain ⟨rfl, _⟩ := hc
            rw [hd] at hm
            cases hm
            exact key v
          · exact ⟨h0, h1⟩
      | writeRange m a b v =>
        simp only [want1]
        cases hm : d m with
        | none => exact ⟨h0, h1⟩
        | some p =>
          simp only
          split
          · rename_i hc
            obtain ⟨rfl, _⟩ := hc
            rw [hd] at hm
            cases hm
            exact key v
          · exact ⟨h0, h1⟩
      | reset m =>
        simp only [want1]
        split
        · exact ⟨Int.le_refl _, hp⟩
        · exact ⟨h0, h1⟩
      | update m idx g =>
        simp only [want1]
        cases hm : d m with
        | none => exact ⟨h0, h1⟩
        | some p =>
          cases hg : g (f m idx) with
          | none => exact ⟨h0, h1⟩
          | some v =>
            simp only
            split
            · rename_i hc
              obtain ⟨rfl, _⟩ := hc
              rw [hd] at hm
              cases hm
              exact key v
            · exact ⟨h0, h1⟩
    exact want_range d rs hd this.1 this.2

theorem Agrees.read {d : Decl} {f : Nat → Nat → Int} {c : Ctx} (h : Agrees d f c) (n : Nat) :
    (d n = none → (∀ i, c.read n i = some (.invalidName, none)) ∧ c.readAll n = []) ∧
    ∀ size w, d n = some (size, w) →
      (∀ i, c.read n i = if i < size then some (.success, some (f n i)) else some (.invalidIndex, none)) ∧
      c.readAll n = (List.range size).map (f n) := by
  refine ⟨fun hd => ?_, fun size w hd => ?_⟩
  · have := (h n).1 hd
    exact ⟨fun i => by simp [Ctx.read, this], by simp [Ctx.readAll, this]⟩
  · obtain ⟨a, a1, a2, a3, a4⟩ := (h n).2 size w hd
    refine ⟨fun i => ?_, ?_⟩
    · simp only [Ctx.read, a1, a3]
      by_cases hi : i < size
      · rw [if_neg (by omega), if_pos hi]
        have : a.cells[i]? = some a.cells[i] := List.getElem?_eq_getElem (by omega)
        rw [this, ← a4 i _ this]
        rfl
      · rw [if_pos (by omega), if_neg hi]
    · simp only [Ctx.readAll, a1]
      apply List.ext_getElem?
      intro i
      by_cases hi : i < size
      · have : a.cells[i]? = some a.cells[i] := List.getElem?_eq_getElem (by omega)
        rw [this, List.getElem?_map, List.getElem?_range hi, a4 i _ this]
        rfl
      · rw [List.getElem?_eq_none (by omega), List.getElem?_eq_none (by simp; omega)]

/-- **C48**, one request after the other.  After any history of writes, writes of ranges, resets and
updates by primitives, reading gives what `want` says: the last value written modulo `2 ^ w` (0 after a
reset), for every array and cell; indices out of range and unknown names are refused. -/
theorem C48_partial (d : Decl) (rs : List Req) (c : Ctx) (h : d.start.run rs = some c) (n : Nat) :
    (d n = none → (∀ i, c.read n i = some (.invalidName, none)) ∧ c.readAll n = []) ∧
    ∀ size w, d n = some (size, w) →
      (∀ i, c.read n i =
        if i < size then some (.success, some (want d rs n i)) else some (.invalidIndex, none)) ∧
      c.readAll n = (List.range size).map (want d rs n) ∧
      ∀ i, 0 ≤ want d rs n i ∧ want d rs n i < 2 ^ w := by
  have ha := (run_agrees rs (agrees_start d) h).read n
  refine ⟨ha.1, fun size w hd => ⟨(ha.2 size w hd).1, (ha.2 size w hd).2, fun i => ?_⟩⟩
  exact want_range d rs hd (Int.le_refl 0) (Int.pow_pos (by omega))

/-- Writing succeeds exactly for a known name and an index in range, otherwise nothing is changed. -/
theorem C48_codes (d : Decl) (rs : List Req) (c : Ctx) (h : d.start.run rs = some c) (n : Nat) (v : Int) :
    (d n = none → (∀ i, c.write n i v = some (.invalidName, c)) ∧
      (∀ i j, c.writeRange n i j v = some (.invalidName, c)) ∧ c.reset n = (.invalidName, c)) ∧
    ∀ size w, d n = some (size, w) →
      (∀ i, (size ≤ i → c.write n i v = some (.invalidIndex, c)) ∧
        (i < size → ∃ c', c.write n i v = some (.success, c'))) ∧
      (∀ i j, (¬ (i ≤ j ∧ j ≤ size) → c.writeRange n i j v = some (.invalidIndex, c)) ∧
        (i ≤ j ∧ j ≤ size → ∃ c', c.writeRange n i j v = some (.success, c'))) ∧
      ∃ c', c.reset n = (.success, c') := by
  have ha := run_agrees rs (agrees_start d) h n
  refine ⟨fun hd => ?_, fun size w hd => ?_⟩
  · have := ha.1 hd
    exact ⟨fun i => by simp [Ctx.write, this], fun i j => by simp [Ctx.writeRange, this],
      by simp [Ctx.reset, this]⟩
  · obtain ⟨a, a1, a2, a3, -⟩ := ha.2 size w hd
    refine ⟨fun i => ⟨fun hi => ?_, fun hi => ?_⟩, fun i j => ⟨fun hi => ?_, fun hi => ?_⟩, ?_⟩
    · simp [Ctx.write, a1, a3, hi]
    · simp only [Ctx.write, a1, a3]
      rw [if_neg (by omega)]
      simp [Arr.set, a3, hi]
    · simp only [Ctx.writeRange, a1, a3]
      rw [if_pos (by omega)]
    · simp only [Ctx.writeRange, a1, a3]
      rw [if_neg (by omega)]
      have : ∀ (k : Nat) (b : Arr) (x : Nat), x + k ≤ b.cells.length → ∃ r, b.setRange v x k = some r := by
        intro k
        induction k with
        | zero => intro b x _; exact ⟨b, rfl⟩
        | succ k ih =>
          intro b x hx
          simp only [Arr.setRange, Arr.set]
          rw [if_pos (by omega), Option.bind_some]
          exact ih _ _ (by simp; omega)
      obtain ⟨r, hr⟩ := this (j - i) a i (by omega)
      exact ⟨c.put n r, by rw [hr]; rfl⟩
    · exact ⟨c.put n a.reset, by simp [Ctx.reset, a1]⟩

/-- The primitives of the targets without `NDEBUG`: an index out of range changes nothing, and one in
range reads or writes the cell. -/
theorem C48_primitives (d : Decl) (rs : List Req) (c : Ctx) (h : d.start.run rs = some c) (n size w : Nat)
    (hd : d n = some (size, w)) (i : Nat) (h32 : i < 2 ^ 32) (v : Int) :
    c.primRead false n i = some (if i < size then some (want d rs n i) else none) ∧
    c.primWrite false n i v = if i < size then d.start.run (rs ++ [.write n i v]) else some c := by
  have ha := run_agrees rs (agrees_start d) h
  have hr := (ha.read n).2 size w hd
  obtain ⟨a, a1, a2, a3, a4⟩ := (ha n).2 size w hd
  have hu : Data.getUint (i : Int) = some i := by
    unfold Data.getUint
    rw [if_pos ⟨by omega, by exact_mod_cast h32⟩]
    rfl
  have hrun : ∀ (l : List Req) (c0 : Ctx), c0.run (l ++ [.write n i v]) =
      (c0.run l).bind fun c => c.exec (.write n i v) := by
    intro l
    induction l with
    | nil => intro c0; simp [Ctx.run]
    | cons x l ih =>
      intro c0
      simp only [List.cons_append, Ctx.run]
      cases c0.exec x with
      | none => rfl
      | some c1 => simp [ih]
  refine ⟨?_, ?_⟩
  · simp only [Ctx.primRead, a1, hu, Option.bind_eq_bind, Option.bind_some, a3]
    by_cases hi : i < size
    · rw [if_neg (by simp; omega), if_pos hi]
      have : a.cells[i]? = some a.cells[i] := List.getElem?_eq_getElem (by omega)
      rw [this, a4 i _ this]
      rfl
    · rw [if_pos (by simp; omega), if_neg hi]
  · simp only [Ctx.primWrite, a1, hu, Option.bind_eq_bind, Option.bind_some, a3]
    by_cases hi : i < size
    · rw [if_neg (by simp; omega), if_pos hi, hrun, h, Option.bind_some]
      simp only [Ctx.exec, Ctx.write, a1, a3]
      rw [if_neg (by omega), Option.map_map]
      rfl
    · rw [if_pos (by simp; omega), if_neg hi]

/-! ## Threads -/

/-- What holds between steps. -/
structure TInv (size w : Nat) (s : Sys) : Prop where
  width : s.arr.width = w
  len : s.arr.cells.length = size
  cells : ∀ i v, s.arr.cells[i]? = some v →
    match s.phase with
    | .dirty _ idx x => v = if i = idx then x else lastVal w s.log i
    | _ => v = lastVal w s.log i
  gen : match s.phase with
    | .idle => True
    | .pending g idx _ => g = s.gen ∧ idx < size
    | .dirty g idx _ => g = s.gen ∧ idx < size
  reads : ∀ pre i v post, s.log = pre ++ .read i v :: post → v = lastVal w pre i

theorem lastVal_snoc (w : Nat) (l : List Entry) (e : Entry) (idx : Nat) :
    lastVal w (l ++ [e]) idx = match e with
      | .wrote i v => if i = idx then v % 2 ^ w else lastVal w l idx
      | .reset => 0
      | .read _ _ => lastVal w l idx := by
  simp only [lastVal, List.foldl_append, List.foldl_cons, List.foldl_nil]
  cases e <;> rfl

theorem snoc_split {α : Type} {l pre post : List α} {e x : α} (h : l ++ [e] = pre ++ x :: post) :
    (post = [] ∧ pre = l ∧ x = e) ∨ ∃ p, post = p ++ [e] ∧ l = pre ++ x :: p := by
  rcases List.eq_nil_or_concat post with rfl | ⟨p, y, rfl⟩
  · left
    have := List.append_inj' h rfl
    simp at this
    exact ⟨rfl, this.1.symm, this.2.symm⟩
  · right
    rw [List.concat_eq_append] at *
    have h' : l ++ [e] = (pre ++ x :: p) ++ [y] := by simpa using h
    have := List.append_inj' h' rfl
    simp at this
    exact ⟨p, by rw [this.2], this.1⟩

theorem tinv_step {size w : Nat} {s s' : Sys} (h : TInv size w s) {e : Ev}
    (hq : e = .reset → s.phase = .idle) (hs : s.step e = .ok s') : TInv size w s' := by
  obtain ⟨hw, hl, hc, hg, hr⟩ := h
  cases e with
  | acquire t =>
    simp only [Sys.step] at hs
    split at hs
    · cases hs; exact ⟨hw, hl, hc, hg, hr⟩
    · cases hs
  | release t =>
    simp only [Sys.step] at hs
    split at hs
    · cases hs; exact ⟨hw, hl, hc, hg, hr⟩
    · cases hs
  | begin t idx v =>
    simp only [Sys.step] at hs
    split at hs
    · rename_i hp
      split at hs
      · rename_i hi
        cases hs
        refine ⟨hw, hl, ?_, ⟨rfl, hl ▸ hi⟩, hr⟩
        rw [hp.2] at hc
        exact hc
      · cases hs
    · cases hs
  | assign t =>
    simp only [Sys.step] at hs
    split at hs
    · rename_i gen idx v hp
      rw [hp] at hc hg
      split at hs
      · split at hs
        · rename_i hge
          cases hs
          refine ⟨hw, by simp [hl], fun i x hx => ?_, hg, hr⟩
          simp only at hx ⊢
          by_cases hi : i = idx
          · subst hi
            rw [List.getElem?_set_self (by omega)] at hx
            cases hx
            simp
          · rw [List.getElem?_set_ne (Ne.symm hi)] at hx
            rw [if_neg hi]
            exact hc i x hx
        · cases hs
      · cases hs
    · cases hs
  | «export» t =>
    simp only [Sys.step] at hs
    split at hs
    · rename_i gen idx v hp
      rw [hp] at hc hg
      split at hs
      · split at hs
        · rename_i hge
          cases hs
          refine ⟨hw, by simp [hl], fun i x hx => ?_, trivial, fun pre i x post hpp => ?_⟩
          · simp only [List.getElem?_modify] at hx ⊢
            obtain ⟨y, hy, hx⟩ := Option.map_eq_some_iff.1 hx
            have := hc i y hy
            rw [lastVal_snoc]
            simp only at this ⊢
            by_cases hi : i = idx
            · subst hi
              simp only [if_true] at this hx ⊢
              rw [← hx, mask_eq, this, hw]
            · rw [if_neg hi] at this
              rw [if_neg (Ne.symm hi)] at hx ⊢
              rw [← hx]
              exact this
          · rcases snoc_split hpp with ⟨-, -, h3⟩ | ⟨p, -, h2⟩
            · cases h3
            · exact hr pre i x p h2
        · cases hs
      · cases hs
    · cases hs
  | read t idx =>
    simp only [Sys.step] at hs
    split at hs
    · rename_i hp
      split at hs
      · rename_i v hv
        cases hs
        have hc' := hc
        rw [hp.2] at hc'
        refine ⟨hw, hl, fun i x hx => ?_, hg, fun pre i x post hpp => ?_⟩
        · have := hc' i x hx
          simp only [hp.2, lastVal_snoc]
          exact this
        · rcases snoc_split hpp with ⟨-, h2, h3⟩ | ⟨p, -, h2⟩
          · cases h3
            rw [h2]
            exact hc' _ _ hv
          · exact hr pre i x p h2
      · cases hs
    · cases hs
  | reset =>
    have hp := hq rfl
    simp only [Sys.step] at hs
    cases hs
    refine ⟨hw, by simp [Arr.reset, hl], fun i x hx => ?_, by simp only [hp], fun pre i x post hpp => ?_⟩
    · simp only [hp, lastVal_snoc]
      simp only [Arr.reset, List.getElem?_replicate] at hx
      split at hx
      · cases hx; rfl
      · cases hx
    · rcases snoc_split hpp with ⟨-, -, h3⟩ | ⟨p, -, h2⟩
      · cases h3
      · exact hr pre i x p h2

theorem tinv_run {size w : Nat} : ∀ (es : List Ev) {s : Sys}, TInv size w s → Quiet s es → InRange size es →
    ∃ s', s.run es = some s' ∧ TInv size w s'
  | [], s, h, _, _ => ⟨s, rfl, h⟩
  | e :: es, s, h, hq, hr => by
    have hr' : InRange size es := by
      cases e <;> simp only [InRange] at hr <;> first | exact hr | exact hr.2
    simp only [Quiet] at hq
    simp only [Sys.run]
    cases hs : s.step e with
    | ok s' =>
      simp only [hs] at hq ⊢
      exact tinv_run es (tinv_step h hq.1 hs) hq.2 hr'
    | no =>
      simp only [hs] at hq ⊢
      exact tinv_run es h hq.2 hr'
    | ub =>
      exfalso
      obtain ⟨hw, hl, hc, hg, -⟩ := h
      cases e with
      | acquire t => simp only [Sys.step] at hs; split at hs <;> cases hs
      | release t => simp only [Sys.step] at hs; split at hs <;> cases hs
      | begin t idx v =>
        simp only [InRange] at hr
        simp only [Sys.step] at hs
        split at hs
        · rw [if_pos (by omega)] at hs; cases hs
        · cases hs
      | assign t =>
        simp only [Sys.step] at hs
        split at hs
        · rename_i hp
          rw [hp] at hg
          split at hs
          · rw [if_pos hg.1] at hs; cases hs
          · cases hs
        · cases hs
      | «export» t =>
        simp only [Sys.step] at hs
        split at hs
        · rename_i hp
          rw [hp] at hg
          split at hs
          · rw [if_pos hg.1] at hs; cases hs
          · cases hs
        · cases hs
      | read t idx =>
        simp only [InRange] at hr
        simp only [Sys.step] at hs
        split at hs
        · split at hs
          · cases hs
          · rename_i hn
            rw [List.getElem?_eq_none_iff] at hn
            omega
        · cases hs
      | reset => simp only [Sys.step] at hs; cases hs

/-- **C48** for threads, in any order of their steps: with indices in range and resets only while no
write is going on there is no undefined behaviour, every read gives the last value written modulo
`2 ^ w`, and so does every cell whenever nobody writes.  (What is missing: resets at any time, see
`C48_refuted_reset`.) -/
theorem C48_threads_partial (size w : Nat) (es : List Ev) (hr : InRange size es)
    (hq : Quiet (Sys.mk' size w) es) :
    ∃ s, (Sys.mk' size w).run es = some s ∧
      (∀ pre i v post, s.log = pre ++ .read i v :: post → v = lastVal w pre i) ∧
      (s.phase = .idle → s.arr.cells = (List.range size).map (lastVal w s.log)) := by
  have h0 : TInv size w (Sys.mk' size w) := by
    refine ⟨rfl, by simp [Sys.mk', Arr.mk'], fun i v hv => ?_, trivial, fun pre i v post h => ?_⟩
    · simp only [Sys.mk', Arr.mk', List.getElem?_replicate] at hv
      split at hv
      · cases hv; rfl
      · cases hv
    · simp [Sys.mk'] at h
  obtain ⟨s, hs, h⟩ := tinv_run es h0 hq hr
  refine ⟨s, hs, h.reads, fun hp => ?_⟩
  have hc := h.cells
  rw [hp] at hc
  apply List.ext_getElem?
  intro i
  by_cases hi : i < size
  · have hlen := h.len
    have : s.arr.cells[i]? = some s.arr.cells[i] := List.getElem?_eq_getElem (by omega)
    rw [this, List.getElem?_map, List.getElem?_range hi, hc i _ this]
    rfl
  · rw [List.getElem?_eq_none (by have := h.len; omega), List.getElem?_eq_none (by simp; omega)]

/-- The code does not wait for the writer when it resets: the writer has a reference to a register of the
vector that the reset destroys. -/
theorem C48_refuted_reset :
    InRange 4 [.acquire 1, .begin 1 2 7, .reset, .assign 1, .export 1] ∧
    (Sys.mk' 4 8).run [.acquire 1, .begin 1 2 7, .reset, .assign 1, .export 1] = none := by
  refine ⟨by simp [InRange], by decide +kernel⟩

/-- Built with `NDEBUG`, the primitives do not refuse an index out of range. -/
theorem C48_refuted_ndebug :
    let d : Decl := fun n => if n = 0 then some (4, 8) else none
    d.start.primRead true 0 4 = none ∧ d.start.primWrite true 0 4 1 = none ∧
    d.start.primRead false 0 4 = some none := by
  decide +kernel

/-! ## Examples -/

/-- Two arrays; a write of a value that does not fit, of a range, an update, a refused write. -/
example :
    let d : Decl := fun n => if n = 0 then some (4, 8) else if n = 1 then some (2, 16) else none
    let rs : List Req := [.write 0 1 300, .writeRange 1 0 2 (-1), .update 0 1 (fun x => some (x + 250)),
      .write 0 9 5, .reset 7, .writeRange 0 2 1 3]
    ((d.start.run rs).map fun c => (c.readAll 0, c.readAll 1)) = some ([0, 38, 0, 0], [65535, 65535]) ∧
    want d rs 0 1 = 38 := by
  decide +kernel

/-- Two threads. -/
example :
    let es : List Ev := [.acquire 1, .begin 1 2 300, .acquire 2, .assign 1, .read 2 2, .export 1, .read 1 2,
      .release 1, .acquire 2, .read 2 2, .reset, .read 2 2, .release 2]
    InRange 4 es ∧ Quiet (Sys.mk' 4 8) es ∧
    ((Sys.mk' 4 8).run es).map (·.log) = some [.wrote 2 300, .read 2 44, .read 2 44, .reset, .read 2 0] := by
  refine ⟨by simp [InRange], by simp [Quiet, Sys.step, Sys.mk', Arr.mk', mask, Arr.reset], by decide +kernel⟩

end Bm.Reg
