import Verif.Lemmas.Action

/-!
# Lemmas on the execution of actions
-/

namespace Bm.Act
variable {σ X E : Type} {env : Env σ X E} {f : Fn σ X E} {adata : List Int} {s : σ}

theorem forall₂_mem {α β : Type} {R : α → β → Prop} {l : List α} {l' : List β} (h : List.Forall₂ R l l') {x : α}
    (hx : x ∈ l) : ∃ y ∈ l', R x y := by
  induction h with
  | nil => cases hx
  | cons h1 _ ih =>
    rcases List.mem_cons.1 hx with rfl | hx
    · exact ⟨_, List.mem_cons_self .., h1⟩
    · obtain ⟨y, hy, hr⟩ := ih hx
      exact ⟨y, List.mem_cons_of_mem _ hy, hr⟩

/-- What evaluating a parameter may do to the temporaries. -/
theorem evalExpr_ok {live : Bool} {temps : List Int} {off : Nat} (e : E) (h : live = true → off < temps.length) :
    (env.ev e adata s = none ∧ evalExpr env adata s live temps off e = none) ∨
    (∃ v temps', env.ev e adata s = some v ∧ evalExpr env adata s live temps off e = some temps' ∧
      temps.length ≤ temps'.length ∧ temps'[off]? = some v ∧
      ∀ i w, i ≠ off → temps[i]? = some w → temps'[i]? = some w) := by
  have key : ∃ t0, growTemps live temps off = some t0 ∧ temps <+: t0 ∧ off < t0.length := by
    unfold growTemps
    by_cases h1 : off < temps.length
    · exact ⟨temps, if_pos h1, List.prefix_rfl, h1⟩
    · have : live = false := by
        cases live
        · rfl
        · exact absurd (h rfl) h1
      subst this
      exact ⟨_, by rw [if_neg h1]; rfl, List.prefix_append _ _, by simp; omega⟩
  obtain ⟨t0, h0, h1, h2⟩ := key
  unfold evalExpr
  rw [h0]
  cases hv : env.ev e adata s with
  | none => left; simp
  | some v =>
    right
    refine ⟨v, t0.set off v, rfl, rfl, ?_, ?_, ?_⟩
    · rw [List.length_set]; exact h1.length_le
    · rw [List.getElem?_set_self h2]
    · intro i w hi hw
      rw [List.getElem?_set_ne (Ne.symm hi)]
      exact getElem?_prefix h1 hw

theorem evalNum_ok {live : Bool} {temps : List Int} {p : Par X E} {a : Atom X E} (hp : AtomOk f p a)
    (h : live = true → ∀ o, p.tmp = some o → o < temps.length) :
    (a.num env adata s = none ∧ evalNum env f adata s live temps p = none) ∨
    (∃ v temps', a.num env adata s = some v ∧ evalNum env f adata s live temps p = some (v, temps') ∧
      temps.length ≤ temps'.length ∧ (p.tmp = none → temps' = temps)) := by
  cases p <;> cases a <;> simp only [AtomOk] at hp
  · right
    exact ⟨_, temps, rfl, by simp [evalNum, hp], Nat.le_refl _, fun _ => rfl⟩
  · rename_i i j
    subst hp
    cases hd : adata[i]? with
    | none => left; simp [Atom.num, evalNum, hd]
    | some v => right; exact ⟨v, temps, by simp [Atom.num, hd], by simp [evalNum, hd], Nat.le_refl _, fun _ => rfl⟩
  · rename_i off e e'
    subst hp
    rcases evalExpr_ok (env := env) (adata := adata) (s := s) e (fun hl => h hl off rfl) with
      ⟨h1, h2⟩ | ⟨v, t', h1, h2, h3, h4, -⟩
    · left; simp [Atom.num, evalNum, h1, h2]
    · right
      exact ⟨v, t', by simp [Atom.num, h1], by simp [evalNum, h2, h4], h3, fun h => by simp [Par.tmp] at h⟩
  · rename_i x y
    subst hp
    cases hd : env.rd x s with
    | none => left; simp [Atom.num, evalNum, hd]
    | some v => right; exact ⟨v, temps, by simp [Atom.num, hd], by simp [evalNum, hd], Nat.le_refl _, fun _ => rfl⟩
  · left
    exact ⟨rfl, rfl⟩

theorem evalVec_ok {live : Bool} : ∀ {ps : List (Par X E)} {l : List (Atom X E)} (temps : List Int),
    List.Forall₂ (AtomOk f) ps l → (live = true → ∀ p ∈ ps, ∀ o, p.tmp = some o → o < temps.length) →
    (l.mapM (Atom.num env adata s) = none ∧ evalVec env f adata s live temps ps = none) ∨
    (∃ vs temps', l.mapM (Atom.num env adata s) = some vs ∧ evalVec env f adata s live temps ps = some (vs, temps') ∧
      temps.length ≤ temps'.length ∧ ((∀ p ∈ ps, p.tmp = none) → temps' = temps))
  | _, _, temps, .nil, _ => .inr ⟨[], temps, by simp, rfl, Nat.le_refl _, fun _ => rfl⟩
  | _, _, temps, .cons (a := p) (l₁ := ps) (b := a) (l₂ := l) hp hl, h => by
    rw [List.mapM_cons]
    rcases evalNum_ok (env := env) (adata := adata) (s := s) hp (fun hx => h hx p (List.mem_cons_self ..)) with
      ⟨h1, h2⟩ | ⟨v, t', h1, h2, h3, h4⟩
    · left; simp [evalVec, h1, h2]
    · have := evalVec_ok (ps := ps) (l := l) t' hl
        (fun hx q hq o ho => Nat.lt_of_lt_of_le (h hx q (List.mem_cons_of_mem _ hq) o ho) h3)
      rcases this with ⟨k1, k2⟩ | ⟨vs, t'', k1, k2, k3, k4⟩
      · left; simp [evalVec, h1, h2, k1, k2]
      · right
        refine ⟨v :: vs, t'', by simp [h1, k1], by simp [evalVec, h2, k2], Nat.le_trans h3 k3, fun hn => ?_⟩
        rw [k4 (fun q hq => hn q (List.mem_cons_of_mem _ hq)), h4 (hn p (List.mem_cons_self ..))]

theorem evalFields_ok : ∀ {ps : List (Par X E)} {l : List X}, List.Forall₂ (AtomOk f) ps (l.map .named) →
    ps.mapM (evalField env s) = l.mapM fun x => (env.rd x s).map fun v => (x, v)
  | [], [], _ => by simp
  | [], _ :: _, h => by cases h
  | _ :: _, [], h => by cases h
  | p :: ps, x :: l, h => by
    cases h with
    | cons h1 h2 =>
      rw [List.mapM_cons, List.mapM_cons, evalFields_ok h2]
      cases p <;> simp only [AtomOk] at h1
      subst h1
      rfl

theorem evalPar_ok {live : Bool} {temps : List Int} {p : Par X E} {a : Src X E} (hp : SrcOk f p a)
    (h : live = true → ¬ a.HasExpr ∧ ∀ o, p.tmp = some o → o < temps.length) :
    (a.arg env adata s = none ∧ evalPar env f adata s live temps p = none) ∨
    (∃ v r temps', a.arg env adata s = some v ∧ evalPar env f adata s live temps p = some (r, temps') ∧
      temps.length ≤ temps'.length ∧ r.deref temps' = some v ∧
      (¬ a.HasExpr → ∀ i w, p.tmp ≠ some i → temps[i]? = some w → temps'[i]? = some w) ∧
      (∀ i, r = .tmp i → p.tmp = some i) ∧ (r.isTmp = true → a.IsExpr)) := by
  have slice : ∀ a b, a ≤ b → b ≤ f.sub.length → f.slice a b = some ((f.sub.drop a).take (b - a)) := by
    intro a b h1 h2
    rw [Fn.slice, if_pos h1, if_pos h2]
  cases a with
  | atom a =>
    replace hp : AtomOk f p a := by cases p <;> exact hp
    cases p <;> cases a <;> simp only [AtomOk] at hp
    · right
      exact ⟨_, .val _, temps, rfl, by simp only [evalPar, hp, Option.map_some], Nat.le_refl _, rfl, fun _ _ _ _ h => h,
        nofun, nofun⟩
    · rename_i i j
      subst hp
      cases hd : adata[i]? with
      | none => left; simp [Src.arg, evalPar, hd]
      | some v =>
        right
        exact ⟨.num v, .val v, temps, by simp [Src.arg, hd], by simp [evalPar, hd], Nat.le_refl _, rfl,
          fun _ _ _ _ h => h, nofun, nofun⟩
    · rename_i off e e'
      subst hp
      rcases evalExpr_ok (env := env) (adata := adata) (s := s) e (fun hl => (h hl).2 off rfl) with
        ⟨h1, h2⟩ | ⟨v, t', h1, h2, h3, h4, h5⟩
      · left; simp [Src.arg, evalPar, h1, h2]
      · right
        refine ⟨.num v, .tmp off, t', by simp [Src.arg, h1], by simp [evalPar, h2], h3, by simp [Ref.deref, h4],
          fun _ i w hi hw => h5 i w (fun hx => hi (by simp [Par.tmp, hx])) hw, fun i hi => ?_, fun _ => trivial⟩
        cases hi
        rfl
    · subst hp
      right
      exact ⟨_, _, temps, rfl, rfl, Nat.le_refl _, rfl, fun _ _ _ _ h => h, nofun, nofun⟩
    · right
      exact ⟨_, .str _, temps, rfl, by simp only [evalPar, hp, Option.map_some], Nat.le_refl _, rfl, fun _ _ _ _ h => h,
        nofun, nofun⟩
  | vec l =>
    cases p <;> simp only [SrcOk] at hp
    rename_i a b
    obtain ⟨h1, h2, h3⟩ := hp
    have hnone : ¬ (Src.vec l).HasExpr → ∀ p ∈ (f.sub.drop a).take (b - a), p.tmp = none := by
      intro hn p hp
      obtain ⟨q, hq, hpq⟩ := forall₂_mem h3 hp
      cases p <;> simp only [Par.tmp]
      cases q <;> simp only [AtomOk] at hpq
      · exact absurd ⟨_, hq⟩ hn
    have hv := evalVec_ok (env := env) (adata := adata) (s := s) (live := live) temps h3
      (fun hl p hp o ho => by rw [hnone (h hl).1 p hp] at ho; cases ho)
    rcases hv with ⟨k1, k2⟩ | ⟨vs, t', k1, k2, k3, k4⟩
    · left; simp [Src.arg, evalPar, slice a b h1 h2, k1, k2]
    · right
      refine ⟨.nums vs, .nums vs, t', by simp [Src.arg, k1], by simp [evalPar, slice a b h1 h2, k2], k3, rfl, ?_,
        nofun, nofun⟩
      intro hn i w _ hw
      rw [k4 (hnone hn)]
      exact hw
  | fields l =>
    cases p <;> simp only [SrcOk] at hp
    rename_i a b
    obtain ⟨h1, h2, h3⟩ := hp
    have hv := evalFields_ok (env := env) (s := s) h3
    cases hd : l.mapM fun x => (env.rd x s).map fun v => (x, v) with
    | none => left; simp [Src.arg, evalPar, slice a b h1 h2, hv, hd]
    | some vs =>
      right
      exact ⟨.flds vs, .flds vs, temps, by simp [Src.arg, hd], by simp [evalPar, slice a b h1 h2, hv, hd], Nat.le_refl _, rfl,
        fun _ _ _ _ h => h, nofun, nofun⟩

theorem forall₂_get {α β : Type} {R : α → β → Prop} {l : List α} {l' : List β} (h : List.Forall₂ R l l') {i : Nat} {x : α}
    {y : β} (hx : l[i]? = some x) (hy : l'[i]? = some y) : R x y := by
  induction h generalizing i with
  | nil => simp at hx
  | cons h1 _ ih =>
    cases i with
    | zero => simp at hx hy; subst hx hy; exact h1
    | succ i => simp at hx hy; exact ih hx hy

/-- The references collected so far are right. -/
def AccOk (env : Env σ X E) (adata : List Int) (s : σ) (ps : List (Par X E)) (srcs : List (Src X E))
    (temps : List Int) (acc : List (Nat × Ref X)) : Prop :=
  ∀ i r, (i, r) ∈ acc → ∃ p src v, ps[i]? = some p ∧ srcs[i]? = some src ∧ src.arg env adata s = some v ∧
    r.deref temps = some v ∧ (∀ j, r = .tmp j → p.tmp = some j) ∧ (r.isTmp = true → src.IsExpr)

/-- Nothing moves the temporaries while there are references into them: the arguments are evaluated from right to left,
or there are enough temporaries. -/
def OrderOk (ps : List (Par X E)) (temps : List Int) (order : List Nat) (acc : List (Nat × Ref X)) : Prop :=
  (order.Pairwise (· > ·) ∧ ∀ i r, (i, r) ∈ acc → ∀ j ∈ order, j < i) ∨
  ∀ p ∈ ps, ∀ o, p.tmp = some o → o < temps.length

theorem evalArgs_ok {ps : List (Par X E)} {srcs : List (Src X E)} (hf : List.Forall₂ (SrcOk f) ps srcs)
    (hinc : ∀ (i j : Nat) (p q : Par X E) (a b : Nat), i < j → ps[i]? = some p → ps[j]? = some q → p.tmp = some a → q.tmp = some b → a < b)
    (hmix : (∃ a ∈ srcs, a.IsExpr) → ∀ a ∈ srcs, ¬ a.HasExpr) :
    ∀ (order : List Nat) (temps : List Int) (acc : List (Nat × Ref X)), order.Nodup →
      (∀ i ∈ order, i < srcs.length ∧ ∀ r, (i, r) ∉ acc) → AccOk env adata s ps srcs temps acc →
      OrderOk ps temps order acc →
      ((∃ i ∈ order, ∃ src, srcs[i]? = some src ∧ src.arg env adata s = none) ∧
        evalArgs env f adata s (fun i => ps[i]?) order temps acc = none) ∨
      (∃ acc' temps', evalArgs env f adata s (fun i => ps[i]?) order temps acc = some (acc', temps') ∧
        temps.length ≤ temps'.length ∧ AccOk env adata s ps srcs temps' acc' ∧
        (∀ i ∈ order, ∃ r, (i, r) ∈ acc') ∧ ∀ x ∈ acc, x ∈ acc')
  | [], temps, acc, _, _, ha, _ => .inr ⟨acc, temps, rfl, Nat.le_refl _, ha, fun i h => (by cases h), fun x h => h⟩
  | i :: order, temps, acc, hnd, hlt, ha, ho => by
    obtain ⟨hi1, hi2⟩ := hlt i (List.mem_cons_self ..)
    obtain ⟨hnd1, hnd2⟩ := List.nodup_cons.1 hnd
    have hlen := hf.length_eq
    have hp : ps[i]? = some (ps[i]'(hlen ▸ hi1)) := List.getElem?_eq_getElem _
    have hs : srcs[i]? = some (srcs[i]'hi1) := List.getElem?_eq_getElem _
    generalize ps[i]'(hlen ▸ hi1) = p at hp
    generalize srcs[i]'hi1 = src at hs
    have hok := forall₂_get hf hp hs
    have hlive : (acc.any fun x => x.2.isTmp) = true → ∃ j k q, (j, Ref.tmp k) ∈ acc ∧ ps[j]? = some q ∧
        q.tmp = some k ∧ (∃ w, temps[k]? = some w) ∧ ∃ a ∈ srcs, a.IsExpr := by
      intro h
      obtain ⟨⟨j, r⟩, hm, hr⟩ := List.any_eq_true.1 h
      obtain ⟨q, a, v, k1, k2, k3, k4, k5, k6⟩ := ha j r hm
      cases r <;> simp [Ref.isTmp] at hr
      rename_i k
      simp only [Ref.deref, Option.map_eq_some_iff] at k4
      obtain ⟨w, hw, -⟩ := k4
      exact ⟨j, k, q, hm, k1, k5 k rfl, ⟨w, hw⟩, a, List.mem_of_getElem? k2, k6 rfl⟩
    have hcond : (acc.any fun x => x.2.isTmp) = true → ¬ src.HasExpr ∧ ∀ o, p.tmp = some o → o < temps.length := by
      intro h
      obtain ⟨j, k, q, k1, k2, k3, ⟨w, k4⟩, k5⟩ := hlive h
      refine ⟨hmix k5 src (List.mem_of_getElem? hs), fun o hpo => ?_⟩
      rcases ho with ⟨-, h2⟩ | h2
      · have := hinc i j p q o k (h2 j _ k1 i (List.mem_cons_self ..)) hp k2 hpo k3
        have := (List.getElem?_eq_some_iff.1 k4).1
        omega
      · exact h2 p (List.mem_of_getElem? hp) o hpo
    rcases evalPar_ok (env := env) (adata := adata) (s := s) hok hcond with
      ⟨h1, h2⟩ | ⟨v, r, t', h1, h2, h3, h4, h5, h6, h7⟩
    · left
      exact ⟨⟨i, List.mem_cons_self .., src, hs, h1⟩, by simp [evalArgs, hp, h2]⟩
    · have hacc : AccOk env adata s ps srcs t' ((i, r) :: acc) := by
        intro j r' hm
        rcases List.mem_cons.1 hm with heq | hm
        · simp only [Prod.mk.injEq] at heq
          obtain ⟨rfl, rfl⟩ := heq
          exact ⟨p, src, v, hp, hs, h1, h4, h6, h7⟩
        · obtain ⟨q, a, v', k1, k2, k3, k4, k5, k6⟩ := ha j r' hm
          refine ⟨q, a, v', k1, k2, k3, ?_, k5, k6⟩
          cases r' <;> try exact k4
          rename_i k _
          simp only [Ref.deref, Option.map_eq_some_iff] at k4 ⊢
          obtain ⟨w, hw, hw'⟩ := k4
          refine ⟨w, h5 (hmix ⟨a, List.mem_of_getElem? k2, k6 rfl⟩ src (List.mem_of_getElem? hs)) k w ?_ hw, hw'⟩
          intro hpk
          have hne : j ≠ i := fun h => hi2 _ (h ▸ hm)
          rcases Nat.lt_or_gt_of_ne hne with hl | hl
          · exact Nat.lt_irrefl _ (hinc j i q p k k hl k1 hp (k5 k rfl) hpk)
          · exact Nat.lt_irrefl _ (hinc i j p q k k hl hp k1 hpk (k5 k rfl))
      have hord : OrderOk ps t' order ((i, r) :: acc) := by
        rcases ho with ⟨o1, o2⟩ | o
        · left
          obtain ⟨o3, o4⟩ := List.pairwise_cons.1 o1
          refine ⟨o4, fun j r' hm k hk => ?_⟩
          rcases List.mem_cons.1 hm with heq | hm
          · simp only [Prod.mk.injEq] at heq
            obtain ⟨rfl, rfl⟩ := heq
            exact o3 k hk
          · exact o2 j r' hm k (List.mem_cons_of_mem _ hk)
        · exact .inr fun p hp o' ho' => Nat.lt_of_lt_of_le (o p hp o' ho') h3
      have hlt' : ∀ j ∈ order, j < srcs.length ∧ ∀ r', (j, r') ∉ (i, r) :: acc := by
        intro j hj
        obtain ⟨a1, a2⟩ := hlt j (List.mem_cons_of_mem _ hj)
        refine ⟨a1, fun r' hm => ?_⟩
        rcases List.mem_cons.1 hm with heq | hm
        · simp only [Prod.mk.injEq] at heq
          exact hnd1 (heq.1 ▸ hj)
        · exact a2 r' hm
      rcases evalArgs_ok hf hinc hmix order t' ((i, r) :: acc) hnd2 hlt' hacc hord with
        ⟨⟨j, k1, k2⟩, k3⟩ | ⟨acc', t'', k1, k2, k3, k4, k5⟩
      · left
        exact ⟨⟨j, List.mem_cons_of_mem _ k1, k2⟩, by simp [evalArgs, hp, h2, k3]⟩
      · right
        refine ⟨acc', t'', by simp [evalArgs, hp, h2, k1], Nat.le_trans h3 k2, k3, fun j hj => ?_,
          fun x hx => k5 x (List.mem_cons_of_mem _ hx)⟩
        rcases List.mem_cons.1 hj with rfl | hj
        · exact ⟨r, k5 _ (List.mem_cons_self ..)⟩
        · exact k4 j hj

theorem mapM_range' {α β : Type} (h : α → Option β) : ∀ (l : List α) (k : Nat) (g : Nat → Option β),
    (∀ i x, l[i]? = some x → g (k + i) = h x) → (List.range' k l.length).mapM g = l.mapM h
  | [], _, _, _ => by simp
  | a :: l, k, g, hg => by
    rw [List.length_cons, List.range'_succ, List.mapM_cons, List.mapM_cons, show g k = h a from hg 0 a rfl]
    rw [mapM_range' h l (k + 1) g fun i x hx => by rw [Nat.add_right_comm]; exact hg (i + 1) x hx]

theorem mapM_none {α β : Type} {h : α → Option β} : ∀ {l : List α} {a : α}, a ∈ l → h a = none → l.mapM h = none
  | b :: l, a, hm, hn => by
    rw [List.mapM_cons]
    rcases List.mem_cons.1 hm with rfl | hm
    · simp [hn]
    · cases hb : h b with
      | none => simp
      | some v => simp [mapM_none hm hn]

theorem lookup_mem {α : Type} : ∀ {l : List (Nat × α)} {i : Nat} {r : α}, (i, r) ∈ l → ∃ r', l.lookup i = some r' ∧ (i, r') ∈ l
  | (j, q) :: l, i, r, hm => by
    by_cases hij : i = j
    · subst hij
      exact ⟨q, by simp [List.lookup], List.mem_cons_self ..⟩
    · rcases List.mem_cons.1 hm with heq | hm
      · simp only [Prod.mk.injEq] at heq
        exact absurd heq.1 hij
      · obtain ⟨r', h1, h2⟩ := lookup_mem hm
        refine ⟨r', ?_, List.mem_cons_of_mem _ h2⟩
        rw [List.lookup_cons, ← h1, beq_false_of_ne hij]

/-- The arguments of a call. -/
theorem callArgs_ok {ps : List (Par X E)} {srcs : List (Src X E)} (hf : List.Forall₂ (SrcOk f) ps srcs)
    (hinc : ∀ (i j : Nat) (p q : Par X E) (a b : Nat), i < j → ps[i]? = some p → ps[j]? = some q → p.tmp = some a → q.tmp = some b → a < b)
    (hmix : (∃ a ∈ srcs, a.IsExpr) → ∀ a ∈ srcs, ¬ a.HasExpr) {order : List Nat}
    (hperm : order.Perm (List.range srcs.length)) {temps : List Int}
    (ho : order.Pairwise (· > ·) ∨ ∀ p ∈ ps, ∀ o, p.tmp = some o → o < temps.length) :
    (srcs.mapM (Src.arg env adata s) = none ∧ evalArgs env f adata s (fun i => ps[i]?) order temps [] = none) ∨
    (∃ vs acc temps', srcs.mapM (Src.arg env adata s) = some vs ∧
      evalArgs env f adata s (fun i => ps[i]?) order temps [] = some (acc, temps') ∧ temps.length ≤ temps'.length ∧
      ((List.range srcs.length).mapM fun i => (acc.lookup i).bind (Ref.deref temps')) = some vs) := by
  have hmem : ∀ i, i ∈ order ↔ i < srcs.length := fun i => by rw [hperm.mem_iff, List.mem_range]
  rcases evalArgs_ok (env := env) (adata := adata) (s := s) hf hinc hmix order temps []
      (hperm.nodup_iff.2 List.nodup_range) (fun i hi => ⟨(hmem i).1 hi, fun _ => by simp⟩) (fun i r h => by cases h)
      (ho.imp (fun h => ⟨h, fun i r h => by cases h⟩) id) with
    ⟨⟨i, h1, src, h2, h3⟩, h4⟩ | ⟨acc, t', h1, h2, h3, h4, -⟩
  · exact .inl ⟨mapM_none (List.mem_of_getElem? h2) h3, h4⟩
  · right
    have hg : ∀ i src, srcs[i]? = some src → (acc.lookup i).bind (Ref.deref t') = src.arg env adata s := by
      intro i src hs
      obtain ⟨r, hr⟩ := h4 i ((hmem i).2 (List.getElem?_eq_some_iff.1 hs).1)
      obtain ⟨r', k1, k2⟩ := lookup_mem hr
      obtain ⟨p, src', v, -, j2, j3, j4, -⟩ := h3 i r' k2
      rw [hs] at j2
      cases j2
      rw [k1, Option.bind_some, j4, j3]
    have heq : ((List.range srcs.length).mapM fun i => (acc.lookup i).bind (Ref.deref t')) =
        srcs.mapM (Src.arg env adata s) := by
      rw [List.range_eq_range']
      exact mapM_range' _ _ _ _ fun i x hx => by rw [Nat.zero_add]; exact hg i x hx
    cases hm : srcs.mapM (Src.arg env adata s) with
    | some vs => exact ⟨vs, acc, t', rfl, h1, h2, heq.trans hm⟩
    | none =>
      exfalso
      have : ∀ (l : List (Src X E)), (∀ a ∈ l, ∃ v, a.arg env adata s = some v) → l.mapM (Src.arg env adata s) ≠ none := by
        intro l
        induction l with
        | nil => intro _; simp
        | cons a l ih =>
          intro h
          obtain ⟨v, hv⟩ := h a (List.mem_cons_self ..)
          have := ih fun b hb => h b (List.mem_cons_of_mem _ hb)
          rw [List.mapM_cons]
          cases hl : l.mapM (Src.arg env adata s) with
          | none => exact absurd hl this
          | some vs => simp [hv]
      refine this srcs (fun a ha => ?_) hm
      obtain ⟨i, hi, rfl⟩ := List.getElem_of_mem ha
      obtain ⟨r, hr⟩ := h4 i ((hmem i).2 hi)
      obtain ⟨p, src', v, -, j2, j3, -⟩ := h3 i r hr
      rw [List.getElem?_eq_getElem hi] at j2
      cases j2
      exact ⟨v, j3⟩

/-! ## Whole actions -/

theorem pairwise_tmp : ∀ {l : List (Par X E)}, (l.filterMap Par.tmp).Pairwise (· < ·) →
    ∀ (i j : Nat) (p q : Par X E) (a b : Nat), i < j → l[i]? = some p → l[j]? = some q → p.tmp = some a →
      q.tmp = some b → a < b := by
  intro l h i j p q a b hij hp hq ha hb
  rw [List.pairwise_filterMap] at h
  obtain ⟨hi, rfl⟩ := List.getElem?_eq_some_iff.1 hp
  obtain ⟨hj, rfl⟩ := List.getElem?_eq_some_iff.1 hq
  exact List.pairwise_iff_getElem.1 h i j hi hj hij a ha b hb

/-- What is needed of the order of evaluation and of the temporaries. -/
def Safe (order : Nat → List Nat) (total : Nat) (temps : List Int) : Prop :=
  (∀ n, (order n).Perm (List.range n)) ∧ ((∀ n, (order n).Pairwise (· > ·)) ∨ total < temps.length)

theorem exec_perform (p : Prim σ X) (args : List (Arg X)) (pc : Nat) (s : σ) :
    (p.perform env args pc s = none ∧ p.exec env args pc s = none) ∨
    (∃ pc' s', p.perform env args pc s = some (some pc', s') ∧ p.exec env args pc s = some (pc', s')) ∨
    (∃ pc' s', p.perform env args pc s = some (none, s') ∧ p.exec env args pc s = some (pc', s') ∧ 2 ^ 63 ≤ pc') := by
  have hint : ∀ a : Arg X, a.int env s = (a.data env s).bind getInt := by
    intro a
    unfold Arg.int
    have : ∀ v : Int, (if -2 ^ 31 ≤ v ∧ v < 2 ^ 31 then some v else none) = getInt v := by
      intro v
      unfold getInt
      by_cases h : v < -2 ^ 31 ∨ 2 ^ 31 ≤ v
      · rw [if_pos h, if_neg (by omega)]
      · rw [if_neg h, if_pos (by omega)]
    cases a <;> simp only [Arg.data, this, Option.bind_some, Option.bind_none]
  unfold Prim.perform
  split
  · rename_i n g
    simp only [Prim.exec]
    cases hg : g args s with
    | none => left; simp [hg]
    | some s' => right; left; exact ⟨pc + 1, s', by simp [hg], by simp [hg]⟩
  · rename_i t o
    simp only [Prim.exec, hint, jumpIfZeroOffset, Option.bind_eq_bind]
    cases t.data env s with
    | none => left; simp
    | some tv =>
      simp only [Option.bind_some]
      cases getInt tv with
      | none => left; simp
      | some tv =>
        simp only [Option.bind_some]
        by_cases h0 : tv = 0
        · rw [if_pos h0, if_pos h0]
          cases o.data env s with
          | none => left; simp
          | some ov =>
            simp only [Option.bind_some]
            cases getInt ov with
            | none => left; simp
            | some ov =>
              right; left
              simp only [Option.bind_some, Option.map_some, pure]
              by_cases hneg : ov < 0
              · exact ⟨pc + 1, s, by rw [if_pos hneg], by rw [if_pos hneg]⟩
              · exact ⟨ov.toNat, s, by rw [if_neg hneg], by rw [if_neg hneg]⟩
        · rw [if_neg h0, if_neg h0]
          right; left
          exact ⟨pc + 1, s, rfl, rfl⟩
  · rename_i o
    simp only [Prim.exec, hint, Option.bind_eq_bind]
    cases o.data env s with
    | none => left; simp
    | some ov =>
      simp only [Option.bind_some]
      cases hi : getInt ov with
      | none => left; simp
      | some ov' =>
        unfold getInt at hi
        split at hi
        · cases hi
        · rename_i hr
          cases hi
          right
          simp only [Option.bind_some, pure]
          by_cases hneg : ov < 0
          · right
            refine ⟨(BitVec.ofInt 64 ov).toNat, s, by rw [if_pos hneg], rfl, ?_⟩
            rw [BitVec.toNat_ofInt]
            omega
          · left
            refine ⟨ov.toNat, s, by rw [if_neg hneg], ?_⟩
            rw [BitVec.toNat_ofInt]
            congr 2
            omega
  · rename_i h1 h2 h3
    left
    refine ⟨rfl, ?_⟩
    unfold Prim.exec
    split
    · exact (h1 _ _ rfl).elim
    · exact (h2 _ _ rfl rfl).elim
    · exact (h3 _ rfl rfl).elim
    · rfl

theorem run_ok {cs : List (Call σ X E)} (h : Loaded f cs) (hlen : cs.length ≤ 2 ^ 63)
    (hmix : ∀ c ∈ cs, (∃ a ∈ c.args, a.IsExpr) → ∀ a ∈ c.args, ¬ a.HasExpr) {order : Nat → List Nat} :
    ∀ (n pc : Nat) (temps : List Int) (s : σ), Safe order f.cnt temps →
      (Fn.run env f adata order n pc (temps, s)).map (Outcome.map Prod.snd) = runCalls env adata cs n pc s := by
  have hl : f.prims.length = cs.length := h.calls.length_eq
  obtain ⟨a, ha, -⟩ := h.inv.tmp
  have htot : a ≤ f.cnt := by
    unfold Fn.cnt
    rw [ha, List.length_range']
    omega
  have hpw : (f.params.filterMap Par.tmp).Pairwise (· < ·) := by rw [ha]; exact List.pairwise_lt_range'
  intro n
  induction n with
  | zero =>
    intro pc temps s _
    simp only [Fn.run, runCalls, hl]
    split <;> rfl
  | succ n ih =>
    intro pc temps s hsafe
    rw [Fn.run, runCalls]
    cases hc : cs[pc]? with
    | none =>
      have : f.prims[pc]? = none := by
        rw [List.getElem?_eq_none_iff] at hc ⊢
        omega
      simp only [this]
      rfl
    | some c =>
      have hpc := (List.getElem?_eq_some_iff.1 hc).1
      obtain ⟨⟨p, off⟩, hp⟩ : ∃ x, f.prims[pc]? = some x := ⟨_, List.getElem?_eq_getElem (by omega)⟩
      obtain ⟨k1, k2, k3, k4⟩ := forall₂_get h.calls hp hc
      simp only at k1 k3 k4
      subst k1
      simp only [hp]
      have hargs : ∀ i, i < c.prim.nparams → ((f.params.drop off).take c.prim.nparams)[i]? = f.params[off + i]? := by
        intro i hi
        rw [List.getElem?_take_of_lt hi, List.getElem?_drop]
      have heval : evalArgs env f adata s (fun i => f.params[off + i]?) (order c.prim.nparams) temps [] =
          evalArgs env f adata s (fun i => ((f.params.drop off).take c.prim.nparams)[i]?) (order c.prim.nparams) temps [] := by
        have : ∀ (o : List Nat) (t : List Int) (acc : List (Nat × Ref X)), (∀ i ∈ o, i < c.prim.nparams) →
            evalArgs env f adata s (fun i => f.params[off + i]?) o t acc =
            evalArgs env f adata s (fun i => ((f.params.drop off).take c.prim.nparams)[i]?) o t acc := by
          intro o
          induction o with
          | nil => intros; rfl
          | cons i o iho =>
            intro t acc hi
            simp only [evalArgs, hargs i (hi i (List.mem_cons_self ..))]
            congr 1
            funext p
            congr 1
            funext x
            exact iho _ _ fun j hj => hi j (List.mem_cons_of_mem _ hj)
        exact this _ _ _ fun i hi => List.mem_range.1 ((hsafe.1 _).mem_iff.1 hi)
      have hsub : ((f.params.drop off).take c.prim.nparams).Sublist f.params :=
        (List.take_sublist _ _).trans (List.drop_sublist _ _)
      have hinc := pairwise_tmp (hpw.sublist (hsub.filterMap _))
      have hbig : ∀ q ∈ (f.params.drop off).take c.prim.nparams, ∀ o, q.tmp = some o → o ≤ f.cnt := by
        intro q hq o ho
        have : o ∈ f.params.filterMap Par.tmp := List.mem_filterMap.2 ⟨q, hsub.subset hq, ho⟩
        rw [ha, List.mem_range'_1] at this
        omega
      have hperm := hsafe.1 c.prim.nparams
      rw [← k2] at hperm
      rw [heval]
      have := callArgs_ok (env := env) (adata := adata) (s := s) (temps := temps) k4 hinc
        (hmix c (List.mem_of_getElem? hc)) hperm
        (hsafe.2.imp (fun h => h _) (fun h q hq o ho => Nat.lt_of_le_of_lt (hbig q hq o ho) h))
      rw [k2] at this
      simp only [Option.bind_eq_bind]
      rcases this with ⟨j1, j2⟩ | ⟨vs, acc, t', j1, j2, j3, j4⟩
      · rw [j1, j2]; rfl
      · rw [j1, j2]
        simp only [Option.bind_some]
        rw [j4]
        simp only [Option.bind_some]
        have hs' : Safe order f.cnt t' := ⟨hsafe.1, hsafe.2.imp id fun h => Nat.lt_of_lt_of_le h j3⟩
        rcases exec_perform (env := env) c.prim vs pc s with ⟨e1, e2⟩ | ⟨pc', s', e1, e2⟩ | ⟨pc', s', e1, e2, e3⟩
        · rw [e1, e2]; rfl
        · rw [e1, e2]
          simp only [Option.bind_some]
          exact ih pc' t' s' hs'
        · rw [e1, e2]
          simp only [Option.bind_some]
          cases n with
          | zero =>
            simp only [Fn.run]
            rw [if_neg (by omega)]
            rfl
          | succ n =>
            rw [Fn.run]
            have : f.prims[pc']? = none := by rw [List.getElem?_eq_none_iff]; omega
            simp only [this]
            rfl

end Bm.Act
