import Verif.Lemmas.Elog

/-!
# Lemmas on the events of pipelines
-/

namespace Bm.Elog
open Spec Pipe MT

variable {kind : Nat → TableKind} {R σ : Type}

/-- The events do not change what is done. -/
theorem step_erase (ids : Ids) (sem : Sem σ) (sw : Sw kind R σ) (n : Nat) (s : σ) :
    (step ids sem sw n s).map Prod.snd = sw.step sem n s := by
  unfold step Sw.step
  cases sw.nodes n with
  | none => rfl
  | some x =>
    cases x with
    | table t tab =>
      dsimp only
      cases tab.apply (t.key s) (t.nbytes s) (t.ts s) with
      | none => rfl
      | some r =>
        simp only [Option.bind_eq_bind, Option.bind_some]
        cases sem.run r.1.act (sem.mark r.1.hit r.1.index s) <;> rfl
    | cond ev t f => dsimp only; cases ev s <;> rfl
    | call fn next => dsimp only; cases sem.act fn [] s <;> rfl

theorem loop_erase (ids : Ids) (sem : Sem σ) : ∀ (fuel : Nat) (sw : Sw kind R σ) (start : Option Nat) (s : σ),
    (loop ids sem fuel sw start s).map Prod.snd = sw.apply sem fuel start s
  | 0, sw, none, s => rfl
  | _ + 1, sw, none, s => rfl
  | 0, sw, some n, s => rfl
  | fuel + 1, sw, some n, s => by
    rw [loop, Sw.apply]
    split
    · rfl
    · rw [← step_erase ids]
      cases h : step ids sem sw n s with
      | none => rfl
      | some x =>
        obtain ⟨es, next, s1, sw1⟩ := x
        simp only [Option.bind_eq_bind, Option.bind_some, Option.map_some]
        rw [← loop_erase ids sem fuel sw1 next s1]
        cases loop ids sem fuel sw1 next s1 <;> rfl

theorem step_told (ids : Ids) (sem : Sem σ) {P : Prog (KeyOf kind) σ} {T : (n : Nat) → AState (KeyOf kind n)}
    {sw : Sw kind R σ} (h : Rel sw P T) {n : Nat} (hn : n ∈ P.names) {s : σ} (he : sem.exit s = false) {es next s1 sw1}
    (hs : step ids sem sw n s = some (es, next, s1, sw1)) :
    Rel sw1 P T ∧ (∀ m, next = some m → m ∈ P.names) ∧
      ∀ es' l r, Told ids sem (fun n => (kind n).spec) P T next s1 l es' r →
        Told ids sem (fun n => (kind n).spec) P T (some n) s (n :: l) (es ++ es') r := by
  obtain ⟨d, hd⟩ := mem_names.1 hn
  have hr := h.node n d hd
  cases d with
  | cond ev t f =>
    rw [NodeRel] at hr
    rw [step, hr] at hs
    dsimp only at hs
    cases hev : ev s with
    | none => rw [hev] at hs; cases hs
    | some b =>
      rw [hev] at hs
      cases hs
      refine ⟨h, ?_, ?_⟩
      · intro m hm
        refine h.closed n _ m hd ?_
        cases b
        · right
          cases hf : f with
          | none => rw [hf] at hm; cases hm
          | some x => rw [hf] at hm; exact congrArg some hm
        · left
          cases ht : t with
          | none => rw [ht] at hm; cases hm
          | some x => rw [ht] at hm; exact congrArg some hm
      · intro es' l r w
        refine .cond he hd hev ?_
        cases b <;> exact w
  | call fn nx =>
    rw [NodeRel] at hr
    rw [step, hr] at hs
    dsimp only at hs
    cases ha : sem.act fn [] s with
    | none => rw [ha] at hs; cases hs
    | some s' =>
      rw [ha] at hs
      cases hs
      exact ⟨h, fun m hm => h.closed n _ m hd hm, fun es' l r w => .call he hd ha w⟩
  | table t =>
    obtain ⟨tab, E, hr, hrep, hz1, hz2⟩ := hr
    obtain ⟨out, tab', s', E', e1, r1, z1, z2, st⟩ :=
      hrep.exec (.apply (t.key s) (t.nbytes s) (t.ts s)) ((h.wf n t hd).2.2 s)
    rw [hz1, hz2] at st
    rw [hz1] at z1
    rw [hz2] at z2
    simp only [Tab.exec, Option.map_eq_some_iff, Prod.mk.injEq] at e1
    obtain ⟨⟨a, tab1⟩, e1, e2, rfl⟩ := e1
    have hs' : s' = T n := st.1
    subst hs'
    subst e2
    rw [step, hr] at hs
    simp only [Option.bind_eq_bind, e1, Option.bind_some] at hs
    cases hact : sem.run a.act (sem.mark a.hit a.index s) with
    | none => rw [hact] at hs; cases hs
    | some s2 =>
      rw [hact, Option.bind_some] at hs
      cases hs
      refine ⟨?_, ?_, ?_⟩
      · have := rel_table h hd r1 z1 z2
        have hT : (fun m => if h : m = n then h ▸ T n else T m) = T := by
          funext m
          by_cases hm : m = n
          · subst hm; simp
          · simp [hm]
        rwa [hT] at this
      · intro m hm
        refine h.closed n _ m hd ?_
        rcases st.2 with ⟨-, hout⟩ | ⟨h0, k0, a0, -, -, -, hout⟩
        · simp only [AOut.ran.injEq] at hout
          exact goto_names (hout.2.2.2.symm.trans hm)
        · simp only [AOut.ran.injEq] at hout
          exact goto_names (hout.2.2.2.symm.trans hm)
      · intro es' l r w
        have := Told.table (ids := ids) he hd st hact w
        obtain ⟨idx, hit, act, nxt⟩ := a
        cases hit <;> cases act <;> exact this

theorem loop_told (ids : Ids) (sem : Sem σ) {P : Prog (KeyOf kind) σ} {T : (n : Nat) → AState (KeyOf kind n)} :
    ∀ (fuel : Nat) (sw : Sw kind R σ) (start : Option Nat) (s : σ) {es l r sw'}, Rel sw P T →
      (∀ m, start = some m → m ∈ P.names) → loop ids sem fuel sw start s = some (es, l, r, sw') →
      Rel sw' P T ∧ Told ids sem (fun n => (kind n).spec) P T start s l es r
  | 0, sw, none, s, _, _, _, _, h, _, e => by cases e; exact ⟨h, .stop s⟩
  | _ + 1, sw, none, s, _, _, _, _, h, _, e => by cases e; exact ⟨h, .stop s⟩
  | 0, sw, some n, s, _, _, _, _, h, _, e => by
    rw [loop] at e
    cases he : sem.exit s with
    | true => simp only [he] at e; cases e; exact ⟨h, .exit n s he⟩
    | false => simp only [he] at e; cases e; exact ⟨h, .pause n s he⟩
  | fuel + 1, sw, some n, s, es, l, r, sw', h, hs, e => by
    rw [loop] at e
    cases he : sem.exit s with
    | true => simp only [he] at e; cases e; exact ⟨h, .exit n s he⟩
    | false =>
      simp only [he] at e
      rw [if_neg (by decide)] at e
      cases h1 : step ids sem sw n s with
      | none => rw [h1] at e; cases e
      | some x =>
        obtain ⟨es1, next, s1, sw1⟩ := x
        rw [h1] at e
        simp only [Option.bind_eq_bind, Option.bind_some] at e
        cases h2 : loop ids sem fuel sw1 next s1 with
        | none => rw [h2] at e; cases e
        | some y =>
          obtain ⟨es2, l2, r2, sw2⟩ := y
          rw [h2] at e
          cases e
          obtain ⟨k1, k2, k3⟩ := step_told ids sem h (hs n rfl) he h1
          obtain ⟨j1, j2⟩ := loop_told ids sem fuel sw1 next s1 k1 k2 h2
          exact ⟨j1, k3 _ _ _ j2⟩

/-- The walk behind the events. -/
theorem told_walk {K : Nat → Type} {ids : Ids} {sem : Sem σ} {sp : (n : Nat) → MatchSpec (K n)} {P : Prog K σ}
    {T : (n : Nat) → AState (K n)} {o s l es r} (h : Told ids sem sp P T o s l es r) : Walk sem sp P T o s l r := by
  induction h with
  | stop s => exact .stop s
  | exit n s h => exact .exit n s h
  | pause n s h => exact .pause n s h
  | cond h1 h2 h3 _ ih => exact .cond h1 h2 h3 ih
  | call h1 h2 h3 _ ih => exact .call h1 h2 h3 ih
  | table h1 h2 h3 h4 _ ih => exact .table h1 h2 h3 h4 ih

/-- Every table has a default. -/
def HasDefaults {K : Nat → Type} (P : Prog K σ) (T : (n : Nat) → AState (K n)) : Prop :=
  ∀ n t, P.Has n (.table t) → (T n).D ≠ none

theorem told_reads {K : Nat → Type} {ids : Ids} {sem : Sem σ} {sp : (n : Nat) → MatchSpec (K n)} {P : Prog K σ}
    {T : (n : Nat) → AState (K n)} (hd : HasDefaults P T) {o s l es r} (h : Told ids sem sp P T o s l es r) :
    Reads ids P o es l := by
  induction h with
  | stop s => exact .stop _
  | exit n s h => exact .stop _
  | pause n s h => exact .stop _
  | cond h1 h2 h3 _ ih => exact .cond h2 ih
  | call h1 h2 h3 _ ih => exact .call h2 ih
  | @table n s t a hit index next s' l es r h1 h2 h3 h4 _ ih =>
    have key : ∃ f d, a = some (f, d) ∧ next = t.decl.goto (Option.isSome hit) (some (f, d)) := by
      rcases h3.2 with ⟨-, hout⟩ | ⟨h0, k0, ⟨f, d⟩, -, -, -, hout⟩
      · simp only [AOut.ran.injEq] at hout
        obtain ⟨o1, o2, -, o4⟩ := hout
        cases hD : (T n).D with
        | none => exact absurd hD (hd n t h2)
        | some x =>
          rw [hD] at o1 o4
          exact ⟨x.1, x.2, o1, by rw [o2]; exact o4⟩
      · simp only [AOut.ran.injEq] at hout
        obtain ⟨o1, o2, -, o4⟩ := hout
        exact ⟨f, d, o1, by rw [o2]; exact o4⟩
    obtain ⟨f, d, rfl, rfl⟩ := key
    refine .table (hit := hit) (a := f.id) h2 ?_
    have : t.decl.goto (Option.isSome hit) (some (⟨f.id, 0⟩, [])) = t.decl.goto (Option.isSome hit) (some (f, d)) := by
      unfold TableDecl.goto
      cases t.decl.hitMiss <;> rfl
    rw [this]
    exact ih

theorem has_unique {P : Prog (KeyOf kind) σ} {sw : Sw kind R σ} {T : (n : Nat) → AState (KeyOf kind n)} (h : Rel sw P T)
    {n : Nat} {d d' : NodeDecl (KeyOf kind n) σ} (h1 : P.Has n d) (h2 : P.Has n d') :
    match d, d' with
    | .table t, .table t' => t = t'
    | .cond ev t f, .cond ev' t' f' => ev = ev' ∧ t.getD none = t'.getD none ∧ f.getD none = f'.getD none
    | .call fn next, .call fn' next' => fn = fn' ∧ next = next'
    | _, _ => False := by
  have k1 := h.node n d h1
  have k2 := h.node n d' h2
  cases d <;> cases d' <;> simp only [NodeRel] at k1 k2
  · obtain ⟨_, _, k1, -⟩ := k1
    obtain ⟨_, _, k2, -⟩ := k2
    rw [k1] at k2
    cases k2
    rfl
  · obtain ⟨_, _, k1, -⟩ := k1
    rw [k1] at k2; cases k2
  · obtain ⟨_, _, k1, -⟩ := k1
    rw [k1] at k2; cases k2
  · obtain ⟨_, _, k2, -⟩ := k2
    rw [k1] at k2; cases k2
  · rw [k1] at k2
    simp only [Option.some.injEq, MNode.cond.injEq] at k2
    exact k2
  · rw [k1] at k2; cases k2
  · obtain ⟨_, _, k2, -⟩ := k2
    rw [k1] at k2; cases k2
  · rw [k1] at k2; cases k2
  · rw [k1] at k2
    simp only [Option.some.injEq, MNode.call.injEq] at k2
    exact k2

/-- There is one reading only. -/
theorem reads_unique (ids : Ids) {P : Prog (KeyOf kind) σ} {sw : Sw kind R σ} {T : (n : Nat) → AState (KeyOf kind n)}
    (h : Rel sw P T) {o : Option Nat} {es : List Ev} {l : List Nat} (h1 : Reads ids P o es l) :
    ∀ {l'}, Reads ids P o es l' → l = l' := by
  induction h1 with
  | stop o => intro l' h2; cases h2; rfl
  | @cond n ev t f b es l k1 k2 ih =>
    intro l' h2
    generalize hx : Ev.cond (ids.cond n) b = x at h2
    cases h2 with
    | @call _ fn' next' _ l'' j1 j2 => cases hx
    | @table _ t hit a _ l'' j1 j2 => cases hit <;> cases hx
    | @cond _ ev' t' f' b' _ l'' j1 j2 =>
      cases hx
      have u := has_unique h k1 j1
      dsimp only at u
      have e : (if b then t else f).getD none = (if b then t' else f').getD none := by
        cases b
        · exact u.2.2
        · exact u.2.1
      rw [← e] at j2
      rw [ih j2]
  | @call n fn next es l k1 k2 ih =>
    intro l' h2
    generalize hx : Ev.action fn.id = x at h2
    cases h2 with
    | @call _ fn' next' _ l'' j1 j2 =>
      have u := has_unique h k1 j1
      dsimp only at u
      rw [← u.2] at j2
      rw [ih j2]
    | @cond _ ev' t' f' _ _ l'' j1 j2 => cases hx
    | @table _ t hit a _ l'' j1 j2 =>
      cases hit <;> cases hx
  | @table n t hit a es l k1 k2 ih =>
    intro l' h2
    generalize hx : ids.look n hit = x at h2
    cases h2 with
    | @call _ fn' next' _ l'' j1 j2 => cases hit <;> cases hx
    | @cond _ ev' t' f' _ _ l'' j1 j2 => cases hit <;> cases hx
    | @table _ t' hit' a' _ l'' j1 j2 =>
      have u := has_unique h k1 j1
      dsimp only at u
      subst u
      have : hit'.isSome = hit.isSome := by cases hit <;> cases hit' <;> first | rfl | cases hx
      rw [this] at j2
      rw [ih j2]

end Bm.Elog
