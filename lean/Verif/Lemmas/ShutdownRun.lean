import Verif.Lemmas.Shutdown

/-!
# Lemmas for C107: steps
-/

namespace Bm.Shutdown
open Bm.Shutdown.Spec

/-- Steps that leave the destructor and the null pointers in egress queues and output buffer alone. -/
theorem inv_light {c : Cfg} {N : Nat} {s s' : St} (h : Inv c N s) (hm : s'.main = s.main)
    (hing : s'.ing ≠ .done → none ∈ inq c s') (hdone : s.ing = .done → s'.ing = .done) (hone : c.single = true → s'.hi = [])
    (hback : ∀ p, s'.ing ≠ .back p) (heq : ∀ x, x.2 = none → (x ∈ s'.eq ↔ x ∈ s.eq))
    (hegr : ∀ w, w < c.n → s'.egr w = s.egr w ∨ (s.egr w ≠ .done ∧ s'.egr w ≠ .done ∧ ∀ p, s'.egr w ≠ .back p))
    (htx : s'.tx = s.tx) (hout : s'.out.count none = s.out.count none) (hload : load c s' ≤ load c s) : Inv c N s' := by
  constructor
  · rw [hm]; exact h.main
  · exact hing
  · exact hone
  · exact hback
  · intro w hw p
    rcases hegr w hw with e | ⟨-, -, e⟩
    · rw [e]; exact h.egr w hw p
    · exact e p
  · intro x hx hn
    rw [hm]
    exact h.nul x ((heq x hn).1 hx) hn
  · intro w hw hp
    rw [hm] at hp
    rw [heq _ rfl]
    rcases hegr w hw with e | ⟨e, -, -⟩
    · rw [e]; exact h.wrk w hw hp
    · exact .inr ((h.wrk w hw hp).resolve_left e)
  · intro w hw hd
    rw [hm]
    rcases hegr w hw with e | ⟨-, e, -⟩
    · exact h.dne w hw (e ▸ hd)
    · exact absurd hd e
  · rw [htx, hm]; exact h.tx
  · rw [hout, hm, htx]; exact h.out
  · intro hf
    rw [hm] at hf
    obtain ⟨f1, f2, f3⟩ := h.fin hf
    refine ⟨hdone f1, ?_, htx ▸ f3⟩
    intro w hw
    rcases hegr w hw with e | ⟨e, -, -⟩
    · rw [e]; exact f2 w hw
    · exact absurd (f2 w hw) e
  · exact Nat.le_trans hload h.load

/-- The part of load and of what is to do that depends on egress threads. -/
theorem egr_set {f : Egr → Nat} {s : St} {w n : Nat} {e : Egr} (hw : w < n) :
    sumTo (fun v => f ((s.setEgr w e).egr v)) n + f (s.egr w) = sumTo (fun v => f (s.egr v)) n + f e := by
  have := sumTo_set (fun v => f (s.egr v)) (fun v => f ((s.setEgr w e).egr v)) w n hw (by
    intro v hv; simp [St.setEgr, hv])
  simpa [St.setEgr] using this

theorem inN_keep {c : Cfg} {N : Nat} {s s' : St} (h : Inv c N s) (hi : s'.ing = s.ing) {r : List (Option Nat)}
    (hq : inq c s' = inq c s ++ r) : inN c s' = inN c s := by
  unfold inN
  rw [hi]
  split
  · rfl
  · rename_i hd
    rw [hq, front_append (h.inp hd)]

/-- Result of a step of an egress thread that has a packet. -/
theorem egr_light {c : Cfg} {N : Nat} {s t : St} (h : Inv c N s) {w : Nat} (hw : w < c.n) {e : Egr} (hold : s.egr w ≠ .done)
    (hnew : e ≠ .done) (hb : ∀ p, e ≠ .back p) (hm : t.main = s.main) (hing : t.ing = s.ing) (heq : t.eq = s.eq)
    (hegr : t.egr = s.egr) (htx : t.tx = s.tx) (hlo : t.lo = s.lo) {r : List (Option Nat)} (hhi : t.hi = s.hi ++ r)
    (hr : c.single = true → r = []) (hout : t.out.count none = s.out.count none)
    (hload : egrN e + (t.out.map outN).sum ≤ egrN (s.egr w) + (s.out.map outN).sum)
    (htodo : egrM e + t.out.length < egrM (s.egr w) + s.out.length) :
    Inv c N (t.setEgr w e) ∧ todo c (t.setEgr w e) < todo c s := by
  have hq : inq c (t.setEgr w e) = inq c s ++ (if c.single then [] else r) := by
    unfold inq
    by_cases hs : c.single = true
    · simp [hs, St.setEgr, hlo]
    · simp [hs, St.setEgr, hhi]
  have hin : inN c (t.setEgr w e) = inN c s := inN_keep h hing hq
  have hset := fun f => egr_set (f := f) (s := s) (e := e) hw
  have hegr' : (t.setEgr w e).egr = (s.setEgr w e).egr := by simp [St.setEgr, hegr]
  constructor
  · refine inv_light h hm ?_ ?_ ?_ ?_ ?_ ?_ htx hout ?_
    · intro hd
      rw [hq]
      exact List.mem_append_left _ (h.inp (hing ▸ hd))
    · intro hd; exact hing.trans hd
    · intro hs
      show t.hi = []
      rw [hhi, h.one hs, hr hs]; rfl
    · intro p; show t.ing ≠ _; rw [hing]; exact h.ing p
    · intro x _; show x ∈ t.eq ↔ _; rw [heq]
    · intro v hv
      rw [hegr']
      by_cases hvw : v = w
      · subst hvw
        refine .inr ⟨hold, ?_, ?_⟩ <;> simp only [St.setEgr, if_true]
        · exact hnew
        · exact hb
      · exact .inl (by simp [St.setEgr, hvw])
    · rw [load_eq, load_eq, hin, hegr']
      have := hset egrN
      show _ + ingN t.ing + (t.eq.map eqN).sum + _ + (t.out.map outN).sum ≤ _
      rw [hing, heq]; omega
  · unfold todo
    rw [hin, hegr']
    have := hset egrM
    show _ + ingM t.ing + (t.eq.map eqM).sum + _ + t.out.length + mainM c.n t.main + (c.capLo - t.lo.length) < _
    rw [hing, heq, hm, hlo]; omega

theorem eq_split (f : ((Nat × Nat) × Option Nat) → Nat) {l l' a b : List ((Nat × Nat) × Option Nat)} {x}
    (h1 : l = a ++ x :: b) (h2 : l' = a ++ b) : (l.map f).sum = (l'.map f).sum + f x := by
  subst h1 h2
  simp only [List.map_append, List.map_cons, List.sum_append, List.sum_cons]; omega

theorem count_le {c : Cfg} {N : Nat} {s : St} (h : Inv c N s) {i : Nat} (hi : s.main = .egress i) :
    s.count (i, 0) ≤ N := by
  have h1 : s.count (i, 0) ≤ (s.eq.map eqN).sum := by
    unfold St.count
    have hnul : ∀ x ∈ s.eq, x.1 = (i, 0) → x.2 ≠ none := by
      intro x hx h1 h2
      have := (h.nul x hx h2).2.2
      rw [hi, h1] at this
      exact Nat.lt_irrefl _ this
    revert hnul
    generalize s.eq = l
    intro hnul
    induction l with
    | nil => simp
    | cons x l ih =>
      have ih := ih fun y hy => hnul y (List.mem_cons_of_mem _ hy)
      rw [List.filter_cons, List.map_cons, List.sum_cons]
      split
      · rename_i hx
        have h2 := hnul x (List.mem_cons_self ..) (by simpa using hx)
        have : eqN x = 1 := by
          unfold eqN
          cases hh : x.2 with
          | none => exact absurd hh h2
          | some p => rfl
        rw [List.length_cons]; omega
      · omega
  have h2 := h.load
  rw [load_eq] at h2
  omega

theorem inv_step {c : Cfg} {N : Nat} {s s' : St} {l : Label} (hfit : Fits c N) (h : Inv c N s) (hl : Modest c l)
    (hs : s.step c l = some s') : Inv c N s' ∧ todo c s' < todo c s := by
  cases l with
  | arrive p =>
    simp only [St.step] at hs
    split at hs
    · rename_i hlen
      cases hs
      have hq : inq c { s with lo := s.lo ++ [some p] } = inq c s ++ (if c.single then [some p] else []) := by
        unfold inq; by_cases hx : c.single = true <;> simp [hx]
      have hin := inN_keep (s' := { s with lo := s.lo ++ [some p] }) h rfl hq
      constructor
      · refine inv_light h rfl ?_ (fun h => h) h.one h.ing (fun _ _ => Iff.rfl) (fun _ _ => .inl rfl) rfl rfl ?_
        · intro hd; rw [hq]; exact List.mem_append_left _ (h.inp hd)
        · rw [load_eq, load_eq, hin]
      · unfold todo
        rw [hin]
        simp only [List.length_append, List.length_cons, List.length_nil]; omega
    · cases hs
  | ingPop =>
    simp only [St.step] at hs
    split at hs
    · -- a packet to be processed again
      rename_i _ p l hing hhi
      cases hs
      have hx : c.single = false := by
        cases hx : c.single with
        | false => rfl
        | true => rw [h.one hx] at hhi; cases hhi
      have hmem := h.inp (by rw [hing]; simp)
      have hq : inq c s = some p :: l := by simp [inq, hx, hhi]
      have hin : inN c s = front l + 1 := by simp [inN, hing, hq, front]
      have hin' : inN c { s with hi := l, ing := .busy p } = front l := by simp [inN, inq, hx]
      constructor
      · refine inv_light h rfl ?_ ?_ (by simp [hx]) (by simp) (fun _ _ => Iff.rfl) (fun _ _ => .inl rfl) rfl rfl ?_
        · intro _
          rw [hq] at hmem
          simp only [inq, hx]
          simpa using hmem
        · rw [hing]; intro h; cases h
        · rw [load_eq, load_eq, hin, hin', hing]; simp only [ingN]; omega
      · unfold todo; rw [hin, hin', hing]; simp only [ingM]; omega
    · rename_i _ l hing hhi
      cases hs
      have hx : c.single = false := by
        cases hx : c.single with
        | false => rfl
        | true => rw [h.one hx] at hhi; cases hhi
      have hin : inN c s = 0 := by simp [inN, hing, inq, hx, hhi, front]
      have hin' : inN c { s with hi := l, ing := .done } = 0 := by simp [inN]
      constructor
      · refine inv_light h rfl (by simp) (fun _ => rfl) (by simp [hx]) (by simp) (fun _ _ => Iff.rfl) (fun _ _ => .inl rfl) rfl rfl ?_
        rw [load_eq, load_eq, hin, hin', hing]; simp only [ingN]; omega
      · unfold todo; rw [hin, hin', hing]; simp only [ingM]; omega
    · rename_i p l hing hhi hlo
      cases hs
      have hmem := h.inp (by rw [hing]; simp)
      have hx : c.single = true := by
        cases hx : c.single with
        | true => rfl
        | false => simp [inq, hx, hhi] at hmem
      have hq : inq c s = some p :: l := by simp [inq, hx, hlo]
      have hin : inN c s = front l + 1 := by simp [inN, hing, hq, front]
      have hin' : inN c { s with lo := l, ing := .busy p } = front l := by simp [inN, inq, hx]
      constructor
      · refine inv_light h rfl ?_ ?_ (fun hx => h.one hx) (by simp) (fun _ _ => Iff.rfl) (fun _ _ => .inl rfl) rfl rfl ?_
        · intro _
          rw [hq] at hmem
          simp only [inq, hx]
          simpa using hmem
        · rw [hing]; intro h; cases h
        · rw [load_eq, load_eq, hin, hin', hing]; simp only [ingN]; omega
      · unfold todo; rw [hin, hin', hing, hlo]; simp only [ingM, List.length_cons]; omega
    · rename_i l hing hhi hlo
      cases hs
      have hmem := h.inp (by rw [hing]; simp)
      have hx : c.single = true := by
        cases hx : c.single with
        | true => rfl
        | false => simp [inq, hx, hhi] at hmem
      have hin : inN c s = 0 := by simp [inN, hing, inq, hx, hlo, front]
      have hin' : inN c { s with lo := l, ing := .done } = 0 := by simp [inN]
      constructor
      · refine inv_light h rfl (by simp) (fun _ => rfl) (fun hx => h.one hx) (by simp) (fun _ _ => Iff.rfl) (fun _ _ => .inl rfl) rfl
          rfl ?_
        rw [load_eq, load_eq, hin, hin', hing]; simp only [ingN]; omega
      · unfold todo; rw [hin, hin', hing, hlo]; simp only [ingM, List.length_cons]; omega
    · cases hs
  | ingDone qs =>
    simp only [St.step] at hs
    split at hs
    · rename_i p hing
      have hin : ∀ t : St, t.hi = s.hi → t.lo = s.lo → t.ing = .idle → inN c t = inN c s := by
        intro t h1 h2 h3; unfold inN inq; rw [h1, h2, h3, hing]; rfl
      have hd : none ∈ inq c s := h.inp (by rw [hing]; simp)
      have hN : ingN s.ing = 1 := by rw [hing]; rfl
      have hM : ingM s.ing = 9 := by rw [hing]; rfl
      have base : ∀ t : St, t.hi = s.hi → t.lo = s.lo → t.ing = .idle → t.egr = s.egr → t.out = s.out → t.tx = s.tx → t.main = s.main →
          (t.eq = s.eq ∨ ∃ q, t.eq = s.eq ++ [(q, some p)]) → Inv c N t ∧ todo c t < todo c s := by
        intro t t1 t2 t3 t4 t5 t6 t7 t8
        have hi := hin t t1 t2 t3
        have hN' : ingN t.ing = 0 := by rw [t3]; rfl
        have hM' : ingM t.ing = 2 := by rw [t3]; rfl
        have e1 : (t.eq.map eqN).sum ≤ (s.eq.map eqN).sum + 1 ∧ (t.eq.map eqM).sum ≤ (s.eq.map eqM).sum + 5 := by
          rcases t8 with t8 | ⟨q, t8⟩
          · rw [t8]; omega
          · rw [t8]; simp [eqN, eqM]
        constructor
        · refine inv_light h t7 ?_ ?_ ?_ ?_ ?_ ?_ t6 (by rw [t5]) ?_
          · intro _; unfold inq at hd ⊢; rw [t1, t2]; exact hd
          · rw [hing]; intro h; cases h
          · rw [t1]; exact h.one
          · rw [t3]; simp
          · intro x hx
            rcases t8 with t8 | ⟨q, t8⟩
            · rw [t8]
            · rw [t8]
              simp only [List.mem_append, List.mem_singleton, or_iff_left_iff_imp]
              intro e; rw [e] at hx; cases hx
          · intro w _; rw [t4]; exact .inl rfl
          · rw [load_eq, load_eq, hi, t4, t5]; omega
        · unfold todo; rw [hi, t2, t4, t5, t7]; omega
      cases hs
      match qs, hl with
      | [], _ => exact base _ rfl rfl rfl rfl rfl rfl rfl (.inl rfl)
      | [q], _ =>
        simp only [List.foldl_cons, List.foldl_nil, St.enqueue]
        split
        · exact base _ rfl rfl rfl rfl rfl rfl rfl (.inr ⟨q, rfl⟩)
        · exact base _ rfl rfl rfl rfl rfl rfl rfl (.inl rfl)
      | _ :: _ :: _, h2 => simp [Modest] at h2
    · cases hs
  | ingBack =>
    have hx : c.single = false := hl
    simp only [St.step] at hs
    split at hs
    · rename_i p hing
      have hN : ingN s.ing = 1 := by rw [hing]; rfl
      have hM : ingM s.ing = 9 := by rw [hing]; rfl
      have hd : none ∈ inq c s := h.inp (by rw [hing]; simp)
      have base : ∀ r, Inv c N { s with hi := s.hi ++ r, ing := .idle } ∧ todo c { s with hi := s.hi ++ r, ing := .idle } < todo c s := by
        intro r
        have hq : inq c { s with hi := s.hi ++ r, ing := .idle } = inq c s ++ r := by simp [inq, hx]
        have hi : inN c { s with hi := s.hi ++ r, ing := .idle } = inN c s := by
          unfold inN; rw [hq, front_append hd, hing]; rfl
        constructor
        · refine inv_light h rfl ?_ ?_ (by simp [hx]) (by simp) (fun _ _ => Iff.rfl) (fun _ _ => .inl rfl) rfl rfl ?_
          · intro _; rw [hq]; exact List.mem_append_left _ hd
          · rw [hing]; intro h; cases h
          · rw [load_eq, load_eq, hi]; simp only [ingN] at *; omega
        · unfold todo; rw [hi]; simp only [ingM] at *; omega
      rw [if_neg (by simp [hx])] at hs
      split at hs
      · cases hs; exact base _
      · cases hs
        have := base []
        simpa using this
    · cases hs
  | ingPush =>
    simp only [St.step] at hs
    split at hs
    · rename_i p hing; exact absurd hing (h.ing p)
    · cases hs
  | egrPop w q =>
    simp only [St.step] at hs
    split at hs
    · rename_i hc
      obtain ⟨hw, hqw, hidle⟩ := hc
      split at hs
      · rename_i p l ht
        obtain ⟨a, b, h1, h2⟩ := takeFirst_some ht
        cases hs
        have eN := eq_split eqN h1 h2
        have eM := eq_split eqM h1 h2
        have sN := egr_set (f := egrN) (s := s) (e := .busy p) hw
        have sM := egr_set (f := egrM) (s := s) (e := .busy p) hw
        rw [hidle] at sN sM
        have hegr : ({ s with eq := l }.setEgr w (.busy p)).egr = (s.setEgr w (.busy p)).egr := rfl
        have hi : inN c ({ s with eq := l }.setEgr w (.busy p)) = inN c s := rfl
        constructor
        · refine inv_light h rfl h.inp (fun h => h) h.one h.ing ?_ ?_ rfl rfl ?_
          · intro x hx
            show x ∈ l ↔ _
            rw [h1, h2]
            simp only [List.mem_append, List.mem_cons]
            constructor
            · rintro (h | h)
              · exact .inl h
              · exact .inr (.inr h)
            · rintro (h | h | h)
              · exact .inl h
              · rw [h] at hx; cases hx
              · exact .inr h
          · intro v hv
            rw [hegr]
            by_cases hvw : v = w
            · subst hvw
              refine .inr ⟨by rw [hidle]; simp, ?_, ?_⟩ <;> simp [St.setEgr]
            · exact .inl (by simp [St.setEgr, hvw])
          · rw [load_eq, load_eq, hi, hegr]
            show _ + ingN s.ing + (l.map eqN).sum + _ + (s.out.map outN).sum ≤ _
            simp only [egrN, eqN] at *
            simp only [Option.isSome_some, if_true] at eN
            omega
        · unfold todo; rw [hi, hegr]
          show _ + ingM s.ing + (l.map eqM).sum + _ + s.out.length + mainM c.n s.main + (c.capLo - s.lo.length) < _
          simp only [egrM, eqM] at *
          simp only [Option.isSome_some, if_true] at eM
          omega
      · rename_i l ht
        obtain ⟨a, b, h1, h2⟩ := takeFirst_some ht
        have hmem : (q, none) ∈ s.eq := by rw [h1]; simp
        obtain ⟨n1, n2, n3⟩ := h.nul _ hmem rfl
        have hqw' : q = (w, 0) := by
          have : q.1 = w := by rw [← hqw]; exact (Nat.mod_eq_of_lt n1).symm
          exact Prod.ext this n2
        cases hs
        have eN := eq_split eqN h1 h2
        have eM := eq_split eqM h1 h2
        have sN := egr_set (f := egrN) (s := s) (e := .done) hw
        have sM := egr_set (f := egrM) (s := s) (e := .done) hw
        rw [hidle] at sN sM
        have hegr : ({ s with eq := l }.setEgr w .done).egr = (s.setEgr w .done).egr := rfl
        have hi : inN c ({ s with eq := l }.setEgr w .done) = inN c s := rfl
        have sub : ∀ x ∈ l, x ∈ s.eq := by
          intro x hx
          rw [h2] at hx; rw [h1]
          simp only [List.mem_append, List.mem_cons] at hx ⊢
          rcases hx with hx | hx
          · exact .inl hx
          · exact .inr (.inr hx)
        constructor
        · constructor
          · exact h.main
          · exact h.inp
          · exact h.one
          · exact h.ing
          · intro v hv p
            by_cases hvw : v = w
            · subst hvw; simp [St.setEgr]
            · simp only [St.setEgr, hvw, if_false]; exact h.egr v hv p
          · intro x hx hn; exact h.nul x (sub x hx) hn
          · intro v hv hp
            by_cases hvw : v = w
            · subst hvw; left; simp [St.setEgr]
            · rcases h.wrk v hv hp with h3 | h3
              · left; simp only [St.setEgr, hvw, if_false]; exact h3
              · right
                show _ ∈ l
                rw [h1] at h3; rw [h2]
                simp only [List.mem_append, List.mem_cons] at h3 ⊢
                rcases h3 with h3 | h3 | h3
                · exact .inl h3
                · rw [hqw'] at h3
                  injection h3 with h4
                  injection h4 with h5
                  exact absurd h5 hvw
                · exact .inr h3
          · intro v hv hd
            by_cases hvw : v = w
            · subst hvw
              have : q.1 = v := by rw [hqw']
              rw [this] at n3
              exact n3
            · simp only [St.setEgr, hvw, if_false] at hd; exact h.dne v hv hd
          · exact h.tx
          · exact h.out
          · intro hf
            have := (h.fin hf).2.1 w hw
            rw [hidle] at this; cases this
          · have hL := h.load
            rw [load_eq] at hL ⊢
            rw [hi, hegr]
            show _ + ingN s.ing + (l.map eqN).sum + _ + (s.out.map outN).sum ≤ _
            simp only [egrN, eqN] at *
            simp only [Option.isSome_none, Bool.false_eq_true, if_false] at eN
            omega
        · unfold todo; rw [hi, hegr]
          show _ + ingM s.ing + (l.map eqM).sum + _ + s.out.length + mainM c.n s.main + (c.capLo - s.lo.length) < _
          simp only [egrM, eqM] at *
          simp only [Option.isSome_none, Bool.false_eq_true, if_false] at eM
          omega
      · cases hs
    · cases hs
  | egrClone w q => exact hl.elim
  | egrDrop w =>
    simp only [St.step] at hs
    split at hs
    · rename_i p he
      split at hs
      · rename_i hw
        cases hs
        exact egr_light h hw (by rw [he]; simp) (by simp) (by simp) rfl rfl rfl rfl rfl rfl (r := []) (by simp) (by simp) rfl
          (by rw [he]; simp [egrN]) (by rw [he]; simp [egrM])
      · cases hs
    · cases hs
  | egrOut w =>
    simp only [St.step] at hs
    split at hs
    · rename_i p he
      split at hs
      · rename_i hw
        cases hs
        exact egr_light h hw (by rw [he]; simp) (by simp) (by simp) rfl rfl rfl rfl rfl rfl (r := []) (by simp) (by simp) rfl
          (by rw [he]; simp [egrN]) (by rw [he]; simp [egrM])
      · cases hs
    · cases hs
  | egrSend w =>
    simp only [St.step] at hs
    split at hs
    · rename_i p he
      split at hs
      · rename_i hw
        cases hs
        refine egr_light (t := { s with out := s.out ++ [some p] }) h hw.1 (by rw [he]; simp) (by simp) (by simp) rfl rfl rfl rfl rfl
          rfl (r := []) (by simp) (by simp) ?_ ?_ ?_
        · simp [List.count_append]
        · rw [he]; simp [egrN, outN]; omega
        · rw [he]; simp [egrM]; omega
      · cases hs
    · cases hs
  | egrBack w =>
    have hx : c.single = false := hl
    simp only [St.step] at hs
    split at hs
    · rename_i p he
      split at hs
      · rename_i hw
        rw [if_neg (by simp [hx])] at hs
        split at hs
        · cases hs
          exact egr_light (t := { s with hi := s.hi ++ [some p] }) h hw (by rw [he]; simp) (by simp) (by simp) rfl rfl rfl rfl rfl rfl
            (r := [some p]) rfl (by simp [hx]) rfl (by rw [he]; simp [egrN]) (by rw [he]; simp [egrM])
        · cases hs
          exact egr_light h hw (by rw [he]; simp) (by simp) (by simp) rfl rfl rfl rfl rfl rfl (r := []) (by simp) (by simp) rfl
            (by rw [he]; simp [egrN]) (by rw [he]; simp [egrM])
      · cases hs
    · cases hs
  | egrPush w =>
    simp only [St.step] at hs
    split at hs
    · rename_i p he
      split at hs
      · rename_i hw; exact absurd he (h.egr w hw.1 p)
      · cases hs
    · cases hs
  | txPop =>
    simp only [St.step] at hs
    split at hs
    · rename_i p l htx hout
      cases hs
      constructor
      · refine inv_light h rfl h.inp (fun h => h) h.one h.ing (fun _ _ => Iff.rfl) (fun _ _ => .inl rfl) rfl ?_ ?_
        · simp [hout]
        · rw [load_eq, load_eq, hout]
          show _ + ingN s.ing + (s.eq.map eqN).sum + _ + (l.map outN).sum ≤ inN c s + _ + _ + _ + _
          have : inN c { s with out := l, sent := s.sent ++ [p] } = inN c s := rfl
          rw [this]
          simp only [List.map_cons, List.sum_cons]; omega
      · unfold todo
        rw [hout]
        show _ + ingM s.ing + (s.eq.map eqM).sum + _ + l.length + mainM c.n s.main + _ < 9 * inN c s + _ + _ + _ + _ + _ + _
        have : inN c { s with out := l, sent := s.sent ++ [p] } = inN c s := rfl
        rw [this, List.length_cons]; dsimp only; omega
    · rename_i l htx hout
      cases hs
      have hc := h.out
      rw [hout, List.count_cons_self, htx] at hc
      have hp : s.main.pastOut = true := by
        by_cases hp : s.main.pastOut = true
        · exact hp
        · rw [if_neg (fun h => hp h.1)] at hc; omega
      rw [if_pos ⟨hp, rfl⟩] at hc
      constructor
      · constructor
        · exact h.main
        · exact h.inp
        · exact h.one
        · exact h.ing
        · exact h.egr
        · exact h.nul
        · exact h.wrk
        · exact h.dne
        · intro _; exact hp
        · show l.count none = _
          rw [if_neg (by simp)]; omega
        · intro hf
          have := (h.fin hf).2.2
          rw [htx] at this; cases this
        · have hL := h.load
          rw [load_eq] at hL ⊢
          have : inN c { s with out := l, tx := true } = inN c s := rfl
          rw [this]
          rw [hout] at hL
          simp only [List.map_cons, List.sum_cons] at hL
          show inN c s + ingN s.ing + (s.eq.map eqN).sum + _ + (l.map outN).sum ≤ _
          dsimp only; omega
      · unfold todo
        have : inN c { s with out := l, tx := true } = inN c s := rfl
        rw [hout, this, List.length_cons]
        show 9 * inN c s + ingM s.ing + (s.eq.map eqM).sum + _ + l.length + mainM c.n s.main + _ < _
        dsimp only; omega
    · cases hs
  | destroy =>
    simp only [St.step] at hs
    split at hs
    · rename_i hm
      rcases h.main with ⟨i, h1, -⟩ | h1 | h1 | h1 <;> rw [h1] at hm <;> cases hm
    · cases hs
  | mainIn =>
    simp only [St.step] at hs
    split at hs
    · rename_i hm
      rcases h.main with ⟨i, h1, -⟩ | h1 | h1 | h1 <;> rw [h1] at hm <;> cases hm
    · cases hs
  | mainEgr =>
    simp only [St.step] at hs
    split at hs
    · rename_i i hm
      have notout : s.main.pastOut = false := by rw [hm]; rfl
      have htx : s.tx = false := by
        cases hh : s.tx with
        | false => rfl
        | true => have := h.tx hh; rw [notout] at this; cases this
      split at hs
      · rename_i hi
        have push : s.count (i, 0) < c.depth (i, 0) := by
          by_cases hp : s.count (i, 0) < c.depth (i, 0)
          · exact hp
          · rw [if_neg hp] at hs
            cases hr : c.retry with
            | true => rw [hr] at hs; cases hs
            | false => exact absurd (Nat.lt_of_le_of_lt (count_le h hm) (hfit.once hr i hi)) hp
        rw [if_pos push] at hs
        have he : s.enqueue c (i, 0) none = { s with eq := s.eq ++ [((i, 0), none)] } := by simp only [St.enqueue, if_pos push]
        rw [he] at hs
        cases hs
        have hin : inN c { s with eq := s.eq ++ [((i, 0), none)], main := .egress (i + 1) } = inN c s := rfl
        constructor
        · constructor
          · exact .inl ⟨i + 1, rfl, hi⟩
          · exact h.inp
          · exact h.one
          · exact h.ing
          · exact h.egr
          · intro x hx hn
            simp only [List.mem_append, List.mem_singleton] at hx
            rcases hx with hx | rfl
            · obtain ⟨n1, n2, n3⟩ := h.nul x hx hn
              refine ⟨n1, n2, ?_⟩
              rw [hm] at n3
              exact Nat.lt_succ_of_lt n3
            · exact ⟨hi, rfl, Nat.lt_succ_self i⟩
          · intro w hw hp
            have hp' : w < i + 1 := hp
            by_cases hwi : w = i
            · subst hwi; exact .inr (by simp)
            · have : s.main.past w := by rw [hm]; show w < i; omega
              rcases h.wrk w hw this with h1 | h1
              · exact .inl h1
              · exact .inr (List.mem_append_left _ h1)
          · intro w hw hd
            have := h.dne w hw hd
            rw [hm] at this
            exact Nat.lt_succ_of_lt this
          · intro ht; have ht' : s.tx = true := ht; rw [htx] at ht'; cases ht'
          · have := h.out
            rw [notout] at this
            exact this
          · intro hf; cases hf
          · have hL := h.load
            rw [load_eq] at hL ⊢
            rw [hin]
            simp only [List.map_append, List.sum_append, List.map_cons, List.map_nil, List.sum_cons, List.sum_nil, eqN,
              Option.isSome_none, Bool.false_eq_true, if_false] at hL ⊢
            omega
        · unfold todo
          rw [hin, hm]
          simp only [List.map_append, List.sum_append, List.map_cons, List.map_nil, List.sum_cons, List.sum_nil, eqM,
              Option.isSome_none, Bool.false_eq_true, if_false, mainM]
          omega
      · rename_i hi
        cases hs
        have hin : inN c { s with main := .output } = inN c s := rfl
        have hie : i = c.n := by
          rcases h.main with ⟨j, h1, h2⟩ | h1 | h1 | h1 <;> rw [h1] at hm <;> cases hm
          omega
        constructor
        · constructor
          · exact .inr (.inl rfl)
          · exact h.inp
          · exact h.one
          · exact h.ing
          · exact h.egr
          · intro x hx hn
            obtain ⟨n1, n2, n3⟩ := h.nul x hx hn
            exact ⟨n1, n2, trivial⟩
          · intro w hw _
            have : s.main.past w := by rw [hm]; show w < i; omega
            exact h.wrk w hw this
          · intro w hw hd; trivial
          · intro ht; have ht' : s.tx = true := ht; rw [htx] at ht'; cases ht'
          · have := h.out
            rw [notout] at this
            exact this
          · intro hf; cases hf
          · have hL := h.load
            rw [load_eq] at hL ⊢
            exact hL
        · unfold todo
          rw [hin, hm]
          simp only [mainM]; omega
    · cases hs
  | mainOut =>
    simp only [St.step] at hs
    split at hs
    · rename_i hm
      cases hs
      obtain ⟨hm, -⟩ := hm
      have notout : s.main.pastOut = false := by rw [hm]; rfl
      have htx : s.tx = false := by
        cases hh : s.tx with
        | false => rfl
        | true => have := h.tx hh; rw [notout] at this; cases this
      have hin : inN c { s with out := s.out ++ [none], main := .join } = inN c s := rfl
      constructor
      · constructor
        · exact .inr (.inr (.inl rfl))
        · exact h.inp
        · exact h.one
        · exact h.ing
        · exact h.egr
        · intro x hx hn
          obtain ⟨n1, n2, n3⟩ := h.nul x hx hn
          exact ⟨n1, n2, trivial⟩
        · intro w hw _
          exact h.wrk w hw (by rw [hm]; trivial)
        · intro w hw hd; trivial
        · intro _; rfl
        · have := h.out
          rw [notout] at this
          rw [List.count_append, this]
          simp [Main.pastOut, htx]
        · intro hf; cases hf
        · have hL := h.load
          rw [load_eq] at hL ⊢
          rw [hin]
          simp only [List.map_append, List.sum_append, List.map_cons, List.map_nil, List.sum_cons, List.sum_nil, outN,
              Option.isSome_none, Bool.false_eq_true, if_false] at hL ⊢
          omega
      · unfold todo
        rw [hin, hm]
        simp only [mainM, List.length_append, List.length_cons, List.length_nil]; omega
    · cases hs
  | mainJoin =>
    simp only [St.step] at hs
    split at hs
    · rename_i hm
      cases hs
      obtain ⟨hm, f1, f2, f3⟩ := hm
      have hin : inN c { s with main := .fin } = inN c s := rfl
      constructor
      · constructor
        · exact .inr (.inr (.inr rfl))
        · exact h.inp
        · exact h.one
        · exact h.ing
        · exact h.egr
        · intro x hx hn
          obtain ⟨n1, n2, n3⟩ := h.nul x hx hn
          exact ⟨n1, n2, trivial⟩
        · intro w hw _
          exact h.wrk w hw (by rw [hm]; trivial)
        · intro w hw hd; trivial
        · intro _; rfl
        · have := h.out
          rw [hm] at this
          exact this
        · intro _; exact ⟨f1, f2, f3⟩
        · have hL := h.load
          rw [load_eq] at hL ⊢
          exact hL
      · unfold todo
        rw [hin, hm]
        simp only [mainM]; omega
    · cases hs

theorem mem_sum {l : List (Option Nat)} : l.length = (l.map outN).sum + l.count none := by
  induction l with
  | nil => rfl
  | cons x l ih =>
    cases x with
    | none => simp only [List.length_cons, List.map_cons, List.sum_cons, List.count_cons_self, outN] at *; simp; omega
    | some p =>
      simp only [List.length_cons, List.map_cons, List.sum_cons, outN] at *
      rw [List.count_cons_of_ne (by simp)]
      simp; omega

theorem progress {c : Cfg} {N : Nat} {s : St} (hfit : Fits c N) (h : Inv c N s) (hf : s.main ≠ .fin) :
    ∃ l s', Modest c l ∧ s.step c l = some s' := by
  by_cases ht : s.tx = false ∧ s.out ≠ []
  · obtain ⟨htx, ho⟩ := ht
    cases hh : s.out with
    | nil => exact absurd hh ho
    | cons x l =>
      cases x with
      | none => exact ⟨.txPop, _, trivial, by simp only [St.step, htx, hh]; rfl⟩
      | some p => exact ⟨.txPop, _, trivial, by simp only [St.step, htx, hh]; rfl⟩
  have hL := h.load
  rw [load_eq] at hL
  have hN := hfit.out
  by_cases hb : ∃ w, w < c.n ∧ ∃ p, s.egr w = .busy p
  · obtain ⟨w, hw, p, hp⟩ := hb
    exact ⟨.egrDrop w, _, trivial, by simp only [St.step, hp, if_pos hw]; rfl⟩
  by_cases hb2 : ∃ w, w < c.n ∧ ∃ p, s.egr w = .out p
  · obtain ⟨w, hw, p, hp⟩ := hb2
    have h1 := sumTo_le (fun w => egrN (s.egr w)) w c.n hw
    have h2 : egrN (s.egr w) = 1 := by rw [hp]; rfl
    have h3 : s.out.length < c.capOut := by
      by_cases htx : s.tx = true
      · have h4 := h.out
        rw [if_neg (by simp [htx])] at h4
        have := mem_sum (l := s.out)
        omega
      · have : s.out = [] := by
          by_cases ho : s.out = []
          · exact ho
          · exact absurd ⟨by simpa using htx, ho⟩ ht
        rw [this]
        exact hfit.room
    exact ⟨.egrSend w, _, trivial, by simp only [St.step, hp, if_pos (And.intro hw h3)]; rfl⟩
  have hid : ∀ w, w < c.n → s.egr w = .idle ∨ s.egr w = .done := by
    intro w hw
    cases hh : s.egr w with
    | idle => exact .inl rfl
    | done => exact .inr rfl
    | busy p => exact absurd ⟨w, hw, p, hh⟩ hb
    | out p => exact absurd ⟨w, hw, p, hh⟩ hb2
    | back p => exact absurd hh (h.egr w hw p)
  by_cases hb3 : ∃ w, w < c.n ∧ s.egr w = .idle ∧ ∃ x ∈ s.eq, x.1.1 % c.n = w
  · obtain ⟨w, hw, hi, x, hx, hm⟩ := hb3
    obtain ⟨y, l, hy⟩ := takeFirst_exists ⟨x, hx, rfl⟩
    cases y with
    | none => exact ⟨.egrPop w x.1, _, trivial, by simp only [St.step, if_pos (And.intro hw (And.intro hm hi)), hy]; rfl⟩
    | some p => exact ⟨.egrPop w x.1, _, trivial, by simp only [St.step, if_pos (And.intro hw (And.intro hm hi)), hy]; rfl⟩
  have hno : ∀ w, w < c.n → ∀ x ∈ s.eq, x.1.1 % c.n = w → s.egr w = .done := by
    intro w hw x hx hm
    rcases hid w hw with hi | hi
    · exact absurd ⟨w, hw, hi, x, hx, hm⟩ hb3
    · exact hi
  cases hing : s.ing with
  | back p => exact absurd hing (h.ing p)
  | busy p => exact ⟨.ingDone [], _, Nat.zero_le _, by simp only [St.step, hing]; rfl⟩
  | idle =>
    have hmem := h.inp (by rw [hing]; simp)
    cases hhi : s.hi with
    | cons x l =>
      cases x with
      | none => exact ⟨.ingPop, _, trivial, by simp only [St.step, hing, hhi]; rfl⟩
      | some p => exact ⟨.ingPop, _, trivial, by simp only [St.step, hing, hhi]; rfl⟩
    | nil =>
      cases hlo : s.lo with
      | nil => unfold inq at hmem; rw [hhi, hlo] at hmem; simp at hmem
      | cons x l =>
        cases x with
        | none => exact ⟨.ingPop, _, trivial, by simp only [St.step, hing, hhi, hlo]; rfl⟩
        | some p => exact ⟨.ingPop, _, trivial, by simp only [St.step, hing, hhi, hlo]; rfl⟩
  | done =>
    have hout : s.tx = false → s.out = [] := by
      intro htx
      by_cases ho : s.out = []
      · exact ho
      · exact absurd ⟨htx, ho⟩ ht
    rcases h.main with ⟨i, hm, hi⟩ | hm | hm | hm
    · by_cases hin : i < c.n
      · by_cases hc : s.count (i, 0) < c.depth (i, 0)
        · exact ⟨.mainEgr, _, trivial, by simp only [St.step, hm, if_pos hin, if_pos hc]; rfl⟩
        · cases hr : c.retry with
          | false => exact ⟨.mainEgr, _, trivial, by simp only [St.step, hm, if_pos hin, if_neg hc, hr]; rfl⟩
          | true =>
            have := hfit.retry hr i hin
            have hpos : 0 < (s.eq.filter fun x => x.1 = (i, 0)).length := by unfold St.count at hc; omega
            obtain ⟨x, hx⟩ := List.exists_mem_of_length_pos hpos
            rw [List.mem_filter] at hx
            have hx2 : x.1 = (i, 0) := by simpa using hx.2
            have hd := hno i hin x hx.1 (by rw [hx2]; exact Nat.mod_eq_of_lt hin)
            have := h.dne i hin hd
            rw [hm] at this
            exact absurd this (Nat.lt_irrefl i)
      · exact ⟨.mainEgr, _, trivial, by simp only [St.step, hm, if_neg hin]; rfl⟩
    · have htx : s.tx = false := by
        cases hh : s.tx with
        | false => rfl
        | true => have := h.tx hh; rw [hm] at this; cases this
      have := hout htx
      exact ⟨.mainOut, _, trivial, by
        simp only [St.step]
        rw [if_pos ⟨hm, by rw [this]; exact hfit.room⟩]⟩
    · have hw : ∀ w, w < c.n → s.egr w = .done := by
        intro w hw
        rcases h.wrk w hw (by rw [hm]; trivial) with h1 | h1
        · exact h1
        · exact hno w hw _ h1 (Nat.mod_eq_of_lt hw)
      have htx : s.tx = true := by
        cases hh : s.tx with
        | true => rfl
        | false =>
          have h1 := h.out
          rw [hout hh, hm, hh] at h1
          simp [Main.pastOut] at h1
      exact ⟨.mainJoin, _, trivial, by
        simp only [St.step]
        rw [if_pos ⟨hm, hing, hw, htx⟩]⟩
    · exact absurd hm hf

theorem inv_start {c : Cfg} {s s' : St} (h : Called c s) (hs : s.step c .mainIn = some s') : Inv c (load c s) s' := by
  simp only [St.step, if_pos h.main] at hs
  have key : ∀ t : St, t.ing = s.ing → t.eq = s.eq → t.egr = s.egr → t.out = s.out → t.tx = s.tx → t.main = .egress 0 →
      inq c t = inq c s ++ [none] → none ∉ inq c s → (c.single = true → t.hi = []) → Inv c (load c s) t := by
    intro t t1 t2 t3 t4 t5 t6 t7 t8 t9
    constructor
    · exact .inl ⟨0, t6, Nat.zero_le _⟩
    · intro _; rw [t7]; simp
    · exact t9
    · rw [t1]; exact h.ing.2
    · rw [t3]; exact fun w hw => (h.egr w hw).2
    · intro x hx hn
      rw [t2] at hx
      exact absurd hn (h.eq x hx)
    · intro w _ hp
      rw [t6] at hp
      exact absurd hp (Nat.not_lt_zero w)
    · intro w hw hd
      rw [t3] at hd
      exact absurd hd (h.egr w hw).1
    · rw [t5, h.tx]; intro h; cases h
    · rw [t4, t6, List.count_eq_zero.2 h.out]; simp [Main.pastOut]
    · rw [t6]; intro h; cases h
    · rw [load_eq, load_eq]
      have : inN c t = inN c s := by unfold inN; rw [t1, t7, front_null t8]
      rw [this, t1, t2, t3, t4]
  split at hs
  · rename_i hx
    split at hs
    · cases hs
      exact key _ rfl rfl rfl rfl rfl rfl (by simp [inq, hx]) (by simp [inq, hx, h.lo]) (fun hx => h.one hx)
    · cases hs
  · rename_i hx
    split at hs
    · cases hs
      exact key _ rfl rfl rfl rfl rfl rfl (by simp [inq, hx]) (by simp [inq, hx, h.hi]) (fun h => absurd h hx)
    · cases hs

theorem inv_run {c : Cfg} {N : Nat} (hfit : Fits c N) {ls : List Label} {s s' : St} (h : Inv c N s)
    (hl : ∀ l ∈ ls, Modest c l) (hs : s.run c ls = some s') : Inv c N s' ∧ todo c s' + ls.length ≤ todo c s := by
  induction ls generalizing s with
  | nil => cases hs; exact ⟨h, Nat.le_refl _⟩
  | cons l ls ih =>
    rw [St.run, Option.bind_eq_some_iff] at hs
    obtain ⟨t, ht, hs⟩ := hs
    obtain ⟨h1, h2⟩ := inv_step hfit h (hl l (List.mem_cons_self ..)) ht
    obtain ⟨h3, h4⟩ := ih h1 (fun l' h' => hl l' (List.mem_cons_of_mem _ h')) hs
    exact ⟨h3, by rw [List.length_cons]; omega⟩

theorem run_append {c : Cfg} {a b : List Label} {s : St} : s.run c (a ++ b) = (s.run c a).bind (·.run c b) := by
  induction a generalizing s with
  | nil => rfl
  | cons l a ih =>
    simp only [List.cons_append, St.run, Option.bind_assoc]
    congr 1
    funext t
    exact ih

theorem finish {c : Cfg} {N : Nat} (hfit : Fits c N) {s : St} (h : Inv c N s) :
    ∃ ls s', (∀ l ∈ ls, Modest c l) ∧ s.run c ls = some s' ∧ s'.main = .fin := by
  generalize hk : todo c s = k
  induction k using Nat.strongRecOn generalizing s with
  | _ k ih =>
    by_cases hf : s.main = .fin
    · exact ⟨[], s, by simp, rfl, hf⟩
    · obtain ⟨l, t, hl, ht⟩ := progress hfit h hf
      obtain ⟨h1, h2⟩ := inv_step hfit h hl ht
      obtain ⟨ls, s', a, b, d⟩ := ih _ (hk ▸ h2) h1 rfl
      refine ⟨l :: ls, s', ?_, ?_, d⟩
      · intro l' h'
        rcases List.mem_cons.1 h' with rfl | h'
        · exact hl
        · exact a l' h'
      · rw [St.run, ht]; exact b

end Bm.Shutdown
