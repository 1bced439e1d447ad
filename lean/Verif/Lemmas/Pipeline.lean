import Verif.Model.Pipeline
import Verif.Lemmas.MatchTable

/-!
# Lemmas on pipelines
-/

namespace Bm.Pipe
open Spec MT
variable {kind : Nat → TableKind} {R σ : Type} {meters : Nat → R}

abbrev Decls (kind : Nat → TableKind) (σ : Type) := List ((n : Nat) × NodeDecl (KeyOf kind n) σ)

theorem set_same (sw : Sw kind R σ) (n : Nat) (x : MNode (kind n) R σ) : (sw.set n x).nodes n = some x := by
  simp [Sw.set]

theorem set_other (sw : Sw kind R σ) {n m : Nat} (x : MNode (kind n) R σ) (h : m ≠ n) :
    (sw.set n x).nodes m = sw.nodes m := by
  simp [Sw.set, h]

/-- The names known to `sw` are known to `sw'`. -/
def Dom (sw sw' : Sw kind R σ) : Prop := ∀ m, (sw.nodes m).isSome = true → (sw'.nodes m).isSome = true

theorem known_mono {sw sw' : Sw kind R σ} (h : Dom sw sw') {o : Option Nat} (k : sw.known o = true) : sw'.known o = true := by
  cases o with
  | none => rfl
  | some m => exact h m k

theorem resolve_mono {sw sw' : Sw kind R σ} (h : Dom sw sw') {n : Nat} {d : NodeDecl (KeyOf kind n) σ}
    {x : MNode (kind n) R σ} (e : sw.resolve meters d = some x) : sw'.resolve meters d = some x := by
  cases d with
  | table t =>
    simp only [Sw.resolve] at e ⊢
    split at e
    · rename_i hk
      rw [if_pos]
      · exact e
      · rw [List.all_eq_true] at hk ⊢
        exact fun o ho => known_mono h (hk o ho)
    · cases e
  | cond ev t f =>
    simp only [Sw.resolve] at e ⊢
    split at e
    · cases e
    · rename_i hn
      rw [if_neg hn]
      split at e
      · rename_i hk
        rw [Bool.and_eq_true] at hk
        rw [if_pos]
        · exact e
        · rw [Bool.and_eq_true]
          exact ⟨known_mono h hk.1, known_mono h hk.2⟩
      · cases e
  | call fn next =>
    simp only [Sw.resolve] at e ⊢
    split at e
    · rename_i hk
      rw [if_pos (known_mono h hk)]
      exact e
    · cases e

theorem add_fold : ∀ (l : Decls kind σ) (sw sw' : Sw kind R σ), l.foldlM (Sw.add meters) sw = some sw' →
    (∀ n ∈ l.map Sigma.fst, sw.nodes n = none) ∧ (l.map Sigma.fst).Nodup ∧
    (∀ n, n ∉ l.map Sigma.fst → sw'.nodes n = sw.nodes n) ∧ (∀ n ∈ l.map Sigma.fst, (sw'.nodes n).isSome = true) ∧
    sw'.firsts = sw.firsts
  | [], sw, sw', e => by
    simp only [List.foldlM_nil, Option.pure_def, Option.some.injEq] at e
    subst e
    simp
  | x :: l, sw, sw', e => by
    simp only [List.foldlM_cons, Option.bind_eq_bind] at e
    obtain ⟨sw1, e1, e2⟩ := Option.bind_eq_some_iff.1 e
    obtain ⟨h1, h2, h3, h4, h5⟩ := add_fold l sw1 sw' e2
    simp only [Sw.add, Option.bind_eq_bind] at e1
    obtain ⟨nd, -, e1⟩ := Option.bind_eq_some_iff.1 e1
    split at e1
    · cases e1
    · rename_i hx
      cases e1
      have hx' : sw.nodes x.1 = none := by simpa using hx
      have hnot : x.1 ∉ l.map Sigma.fst := by
        intro hm
        have := h1 x.1 hm
        rw [set_same] at this
        cases this
      refine ⟨?_, ?_, ?_, ?_, h5⟩
      · intro n hn
        rw [List.map_cons, List.mem_cons] at hn
        rcases hn with rfl | hn
        · exact hx'
        · have := h1 n hn
          rwa [set_other sw nd (by rintro rfl; exact hnot hn)] at this
      · rw [List.map_cons, List.nodup_cons]
        exact ⟨hnot, h2⟩
      · intro n hn
        rw [List.map_cons, List.mem_cons, not_or] at hn
        rw [h3 n hn.2, set_other sw nd hn.1]
      · intro n hn
        rw [List.map_cons, List.mem_cons] at hn
        rcases hn with rfl | hn
        · rw [h3 _ hnot, set_same]; rfl
        · exact h4 n hn

theorem connect_fold : ∀ (l : Decls kind σ) (sw sw' : Sw kind R σ), (l.map Sigma.fst).Nodup →
    (∀ n ∈ l.map Sigma.fst, (sw.nodes n).isSome = true) → l.foldlM (Sw.connect meters) sw = some sw' →
    (∀ x ∈ l, ∃ nd, sw.resolve meters x.2 = some nd ∧ sw'.nodes x.1 = some nd) ∧
    (∀ n, n ∉ l.map Sigma.fst → sw'.nodes n = sw.nodes n) ∧ (Dom sw sw' ∧ Dom sw' sw) ∧ sw'.firsts = sw.firsts
  | [], sw, sw', _, _, e => by
    simp only [List.foldlM_nil, Option.pure_def, Option.some.injEq] at e
    subst e
    exact ⟨by simp, fun _ _ => rfl, ⟨fun _ h => h, fun _ h => h⟩, rfl⟩
  | x :: l, sw, sw', hnd, hdom, e => by
    simp only [List.foldlM_cons, Option.bind_eq_bind] at e
    obtain ⟨sw1, e1, e2⟩ := Option.bind_eq_some_iff.1 e
    obtain ⟨nd, hr, rfl⟩ := Option.map_eq_some_iff.1 e1
    rw [List.map_cons, List.nodup_cons] at hnd
    have hx : (sw.nodes x.1).isSome = true := hdom _ (by simp)
    have d1 : Dom sw (sw.set x.1 nd) := by
      intro m hm
      by_cases h : m = x.1
      · subst h; rw [set_same]; rfl
      · rwa [set_other _ _ h]
    have d2 : Dom (sw.set x.1 nd) sw := by
      intro m hm
      by_cases h : m = x.1
      · subst h; exact hx
      · rwa [set_other _ _ h] at hm
    obtain ⟨h1, h2, ⟨h3, h3'⟩, h4⟩ := connect_fold l _ sw' hnd.2 (fun n hn => d1 n (hdom n (by simp [hn]))) e2
    refine ⟨?_, ?_, ⟨fun m hm => h3 m (d1 m hm), fun m hm => d2 m (h3' m hm)⟩, h4⟩
    · intro y hy
      rw [List.mem_cons] at hy
      rcases hy with rfl | hy
      · exact ⟨nd, hr, by rw [h2 _ hnd.1, set_same]⟩
      · obtain ⟨nd', a, b⟩ := h1 y hy
        exact ⟨nd', resolve_mono d2 a, b⟩
    · intro n hn
      rw [List.map_cons, List.mem_cons, not_or] at hn
      rw [h2 n hn.2, set_other sw nd hn.1]

/-- What is known after loading `P`. -/
structure Conn (meters : Nat → R) (sw : Sw kind R σ) (P : Prog (KeyOf kind) σ) : Prop where
  node : ∀ n d, P.Has n d → ∃ nd, sw.resolve meters d = some nd ∧ sw.nodes n = some nd
  dom : ∀ n, (sw.nodes n).isSome = true ↔ n ∈ P.names
  nodup : P.names.Nodup
  firsts : sw.firsts = P.map PipeDecl.first
  first : ∀ p ∈ P, sw.known p.first = true

theorem names_append (P Q : Prog (KeyOf kind) σ) : Prog.names (P ++ Q) = Prog.names P ++ Prog.names Q := by
  simp [Prog.names]

theorem conn_step {sw sw' : Sw kind R σ} {P : Prog (KeyOf kind) σ} (h : Conn meters sw P) {p : PipeDecl (KeyOf kind) σ}
    (e : sw.loadPipe meters p = some sw') : Conn meters sw' (P ++ [p]) := by
  simp only [Sw.loadPipe, Option.bind_eq_bind] at e
  obtain ⟨sw1, e1, e⟩ := Option.bind_eq_some_iff.1 e
  obtain ⟨sw2, e2, e⟩ := Option.bind_eq_some_iff.1 e
  by_cases hk : sw2.known p.first = true
  swap
  · rw [if_neg hk] at e; cases e
  rw [if_pos hk] at e
  cases e
  obtain ⟨a1, a2, a3, a4, a5⟩ := add_fold _ _ _ e1
  obtain ⟨b1, b2, ⟨b3, b3'⟩, b4⟩ := connect_fold _ _ _ a2 a4 e2
  have hdisj : ∀ n, n ∈ P.names → n ∉ p.nodes.map Sigma.fst := by
    intro n hn hm
    have := (h.dom n).2 hn
    rw [a1 n hm] at this
    cases this
  have hd : Dom sw sw2 := by
    intro m hm
    by_cases hmem : m ∈ p.nodes.map Sigma.fst
    · exact b3 m (a4 m hmem)
    · rw [b2 m hmem, a3 m hmem]; exact hm
  have hone : Prog.names [p] = p.nodes.map Sigma.fst := by simp [Prog.names]
  refine ⟨?_, ?_, ?_, ?_, ?_⟩
  · rintro n d ⟨q, hq, hmem⟩
    rw [List.mem_append, List.mem_singleton] at hq
    rcases hq with hq | rfl
    · obtain ⟨nd, k1, k2⟩ := h.node n d ⟨q, hq, hmem⟩
      have hn : n ∉ p.nodes.map Sigma.fst := hdisj n (List.mem_flatMap.2 ⟨q, hq, List.mem_map.2 ⟨_, hmem, rfl⟩⟩)
      exact ⟨nd, resolve_mono hd k1, by show sw2.nodes n = _; rw [b2 n hn, a3 n hn, k2]⟩
    · obtain ⟨nd, k1, k2⟩ := b1 _ hmem
      exact ⟨nd, resolve_mono b3 k1, k2⟩
  · intro n
    show (sw2.nodes n).isSome = true ↔ _
    rw [names_append, List.mem_append, hone]
    by_cases hmem : n ∈ p.nodes.map Sigma.fst
    · exact ⟨fun _ => .inr hmem, fun _ => b3 n (a4 n hmem)⟩
    · rw [b2 n hmem, a3 n hmem, h.dom n]
      exact ⟨.inl, fun k => k.resolve_right hmem⟩
  · rw [names_append, hone, List.nodup_append]
    refine ⟨h.nodup, a2, ?_⟩
    rintro n hn m hm rfl
    exact hdisj n hn hm
  · show sw2.firsts ++ [p.first] = _
    rw [b4, a5, h.firsts, List.map_append]
    rfl
  · intro q hq
    rw [List.mem_append, List.mem_singleton] at hq
    rcases hq with hq | rfl
    · exact known_mono hd (h.first q hq)
    · exact hk

theorem conn_fold : ∀ (Q P : Prog (KeyOf kind) σ) (sw sw' : Sw kind R σ), Conn meters sw P →
    Q.foldlM (Sw.loadPipe meters) sw = some sw' → Conn meters sw' (P ++ Q)
  | [], P, sw, sw', h, e => by
    simp only [List.foldlM_nil, Option.pure_def, Option.some.injEq] at e
    subst e
    rwa [List.append_nil]
  | p :: Q, P, sw, sw', h, e => by
    simp only [List.foldlM_cons, Option.bind_eq_bind] at e
    obtain ⟨sw1, e1, e2⟩ := Option.bind_eq_some_iff.1 e
    have := conn_fold Q (P ++ [p]) sw1 sw' (conn_step h e1) e2
    rwa [List.append_assoc] at this

theorem conn_load {P : Prog (KeyOf kind) σ} {sw : Sw kind R σ} (e : load meters P = some sw) : Conn meters sw P :=
  conn_fold P [] _ sw ⟨(by rintro n d ⟨p, hp, -⟩; cases hp), by simp [Prog.names], List.nodup_nil, rfl, by simp⟩ e

/-! ## Closedness -/

theorem refs_iff {K : Type} (P : TableDecl K) (m : Nat) : some m ∈ tableRefs P ↔ TableDecl.Names P m := by
  unfold tableRefs TableDecl.Names
  rw [List.mem_append, List.mem_append, or_assoc]
  refine or_congr ?_ (or_congr ?_ ?_)
  · simp
  · cases P.hitMiss with
    | none => simp
    | some x => simp [eq_comm]
  · cases P.base with
    | none => simp
    | some x => simp [eq_comm]

theorem resolve_known {sw : Sw kind R σ} {n : Nat} {d : NodeDecl (KeyOf kind n) σ} {x : MNode (kind n) R σ}
    (e : sw.resolve meters d = some x) {m : Nat} (h : d.Names m) : sw.known (some m) = true := by
  cases d with
  | table t =>
    simp only [Sw.resolve] at e
    split at e
    · rename_i hk
      exact List.all_eq_true.1 hk _ ((refs_iff _ _).2 h)
    · cases e
  | cond ev t f =>
    simp only [Sw.resolve] at e
    split at e
    · cases e
    · split at e
      · rename_i hk
        rw [Bool.and_eq_true] at hk
        rcases h with rfl | rfl
        · exact hk.1
        · exact hk.2
      · cases e
  | call fn next =>
    simp only [Sw.resolve] at e
    split at e
    · rename_i hk
      rw [show next = some m from h] at hk
      exact hk
    · cases e

theorem mem_names {P : Prog (KeyOf kind) σ} {n : Nat} : n ∈ P.names ↔ ∃ d, P.Has n d := by
  simp only [Prog.names, List.mem_flatMap, List.mem_map, Prog.Has]
  constructor
  · rintro ⟨p, hp, ⟨n', d⟩, hd, rfl⟩
    exact ⟨d, p, hp, hd⟩
  · rintro ⟨d, p, hp, hd⟩
    exact ⟨p, hp, _, hd, rfl⟩

theorem goto_names {K : Type} {P : TableDecl K} {hit : Bool} {act : Option (ActFn × List Int)} {m : Nat}
    (h : P.goto hit act = some m) : TableDecl.Names P m := by
  unfold TableDecl.goto at h
  split at h
  · rename_i a b e
    refine .inr (.inl ⟨_, e, ?_⟩)
    cases hit
    · exact .inr h
    · exact .inl h
  · unfold TableDecl.after at h
    split at h
    · rename_i x e
      exact .inl ⟨x, List.mem_of_find?_eq_some e, h⟩
    · cases h
  · rename_i e
    refine .inr (.inr ?_)
    cases hb : P.base with
    | none => rw [hb] at h; cases h
    | some x => rw [hb] at h; exact congrArg some h

/-! ## The relation -/

/-- A node of the switch is what the program declares, with the state of its table. -/
def NodeRel {n : Nat} (s : AState (KeyOf kind n)) (o : Option (MNode (kind n) R σ)) : NodeDecl (KeyOf kind n) σ → Prop
  | .table t => ∃ tab E, o = some (.table t tab) ∧ Rep (kind n).laws t.decl t.decl.entries.isSome tab s E ∧
      tab.mu.size = t.size ∧ tab.mu.sizeKey = t.sizeKey
  | .cond ev t f => o = some (.cond ev (t.getD none) (f.getD none))
  | .call fn next => o = some (.call fn next)

/-- The switch represents the program with the given states of tables. -/
structure Rel (sw : Sw kind R σ) (P : Prog (KeyOf kind) σ) (T : (n : Nat) → AState (KeyOf kind n)) : Prop where
  node : ∀ n d, P.Has n d → NodeRel (T n) (sw.nodes n) d
  closed : ∀ n d m, P.Has n d → d.Names m → m ∈ P.names
  firsts : sw.firsts = P.map PipeDecl.first
  first : ∀ p ∈ P, ∀ m, p.first = some m → m ∈ P.names
  wf : P.WF (fun n => (kind n).spec)

theorem rel_load {P : Prog (KeyOf kind) σ} (hw : P.WF (fun n => (kind n).spec)) {sw : Sw kind R σ}
    (e : load meters P = some sw) : ∃ T, Rel sw P T ∧ P.Start T := by
  have c := conn_load e
  have hex : ∀ n, ∃ s : AState (KeyOf kind n), ∀ d, P.Has n d →
      NodeRel s (sw.nodes n) d ∧ ∀ t, d = .table t → t.decl.Start s := by
    intro n
    by_cases ht : ∃ t, P.Has n (.table t)
    · obtain ⟨t, ht⟩ := ht
      obtain ⟨nd, k1, k2⟩ := c.node n _ ht
      simp only [Sw.resolve] at k1
      split at k1
      swap
      · cases k1
      obtain ⟨tab, k1', rfl⟩ := Option.map_eq_some_iff.1 k1
      obtain ⟨w1, w2, -⟩ := hw n t ht
      obtain ⟨s, E, r1, r2, r3, r4⟩ := load_ok (kind n).laws t.decl w1 w2 meters k1'
      refine ⟨s, ?_⟩
      intro d hd
      obtain ⟨nd', j1, j2⟩ := c.node n d hd
      rw [k2] at j2
      cases j2
      cases d with
      | table t' =>
        simp only [Sw.resolve] at j1
        split at j1
        swap
        · cases j1
        obtain ⟨tab', j1, j2⟩ := Option.map_eq_some_iff.1 j1
        cases j2
        refine ⟨⟨tab, E, k2, r1, r3, r4⟩, ?_⟩
        rintro t'' ⟨⟩
        exact r2
      | cond ev a b =>
        simp only [Sw.resolve] at j1
        split at j1
        · cases j1
        · split at j1 <;> cases j1
      | call fn next =>
        simp only [Sw.resolve] at j1
        split at j1 <;> cases j1
    · refine ⟨⟨fun _ => none, none⟩, ?_⟩
      intro d hd
      obtain ⟨nd, j1, j2⟩ := c.node n d hd
      cases d with
      | table t => exact absurd ⟨t, hd⟩ ht
      | cond ev a b =>
        simp only [Sw.resolve] at j1
        split at j1
        · cases j1
        · split at j1
          · cases j1
            exact ⟨j2, nofun⟩
          · cases j1
      | call fn next =>
        simp only [Sw.resolve] at j1
        split at j1
        · cases j1
          exact ⟨j2, nofun⟩
        · cases j1
  refine ⟨fun n => (hex n).choose, ⟨fun n d hd => ((hex n).choose_spec d hd).1, ?_, c.firsts, ?_, hw⟩, ?_⟩
  · intro n d m hd hm
    obtain ⟨nd, k1, -⟩ := c.node n d hd
    exact (c.dom m).1 (resolve_known k1 hm)
  · intro p hp m hm
    have := c.first p hp
    rw [hm] at this
    exact (c.dom m).1 this
  · intro n t ht
    exact ((hex n).choose_spec _ ht).2 t rfl

theorem rel_table {sw : Sw kind R σ} {P : Prog (KeyOf kind) σ} {T : (n : Nat) → AState (KeyOf kind n)} (h : Rel sw P T)
    {n : Nat} {t : TableNode (KeyOf kind n) σ} (ht : P.Has n (.table t)) {tab : Tab (kind n).str R}
    {s : AState (KeyOf kind n)} {E} (r : Rep (kind n).laws t.decl t.decl.entries.isSome tab s E)
    (h1 : tab.mu.size = t.size) (h2 : tab.mu.sizeKey = t.sizeKey) :
    Rel (sw.set n (.table t tab)) P (fun m => if h : m = n then h ▸ s else T m) := by
  refine ⟨?_, h.closed, h.firsts, h.first, h.wf⟩
  intro m d hd
  by_cases hm : m = n
  · subst hm
    rw [set_same]
    simp only [dif_pos]
    have k := h.node m d hd
    obtain ⟨tab0, E0, k0, -⟩ := h.node m _ ht
    cases d with
    | table t' =>
      obtain ⟨tab1, E1, k1, -⟩ := k
      rw [k0] at k1
      cases k1
      exact ⟨tab, E, rfl, r, h1, h2⟩
    | cond ev a b =>
      rw [NodeRel, k0] at k
      cases k
    | call fn next =>
      rw [NodeRel, k0] at k
      cases k
  · rw [set_other _ _ hm]
    simp only [dif_neg hm]
    exact h.node m d hd

theorem walk_ok (sem : Sem σ) {P : Prog (KeyOf kind) σ} {T : (n : Nat) → AState (KeyOf kind n)} :
    ∀ (fuel : Nat) (sw : Sw kind R σ) (start : Option Nat) (s : σ), Rel sw P T →
      (∀ m, start = some m → m ∈ P.names) →
      (sw.apply sem fuel start s = none ∧ ∃ l, Walk sem (fun n => (kind n).spec) P T start s l .undefined) ∨
      (∃ l r sw', sw.apply sem fuel start s = some (l, r, sw') ∧ Rel sw' P T ∧
        Walk sem (fun n => (kind n).spec) P T start s l r ∧ r ≠ .undefined ∧
        ∀ n s', r = .atNode n s' → l.length = fuel) := by
  intro fuel
  induction fuel with
  | zero =>
    intro sw start s h hs
    right
    cases start with
    | none => exact ⟨[], .ended s, sw, rfl, h, .stop s, nofun, nofun⟩
    | some n =>
      by_cases he : sem.exit s = true
      · refine ⟨[], .ended s, sw, ?_, h, .exit n s he, nofun, nofun⟩
        rw [Sw.apply, if_pos he]
      · refine ⟨[], .atNode n s, sw, ?_, h, .pause n s (by simpa using he), nofun, fun _ _ _ => rfl⟩
        rw [Sw.apply, if_neg he]
  | succ fuel ih =>
    intro sw start s h hs
    cases start with
    | none => right; exact ⟨[], .ended s, sw, rfl, h, .stop s, nofun, nofun⟩
    | some n =>
      by_cases he : sem.exit s = true
      · right
        refine ⟨[], .ended s, sw, ?_, h, .exit n s he, nofun, nofun⟩
        rw [Sw.apply, if_pos he]
      have he' : sem.exit s = false := by simpa using he
      obtain ⟨d, hd⟩ := mem_names.1 (hs n rfl)
      have hn := h.node n d hd
      rw [Sw.apply, if_neg he]
      -- what to do after a step
      have key : ∀ (next : Option Nat) (s1 : σ) (sw1 : Sw kind R σ), sw.step sem n s = some (next, s1, sw1) → Rel sw1 P T →
          (∀ m, next = some m → m ∈ P.names) →
          (∀ l r, Walk sem (fun n => (kind n).spec) P T next s1 l r → Walk sem (fun n => (kind n).spec) P T (some n) s (n :: l) r) →
          ((do let (next, s, sw) ← sw.step sem n s
               let (l, r, sw) ← Sw.apply sem fuel sw next s
               return (n :: l, r, sw)) = none ∧ ∃ l, Walk sem (fun n => (kind n).spec) P T (some n) s l .undefined) ∨
          (∃ l r sw', (do let (next, s, sw) ← sw.step sem n s
                          let (l, r, sw) ← Sw.apply sem fuel sw next s
                          return (n :: l, r, sw)) = some (l, r, sw') ∧ Rel sw' P T ∧
            Walk sem (fun n => (kind n).spec) P T (some n) s l r ∧ r ≠ .undefined ∧
            ∀ n s', r = .atNode n s' → l.length = fuel + 1) := by
        intro next s1 sw1 hst hr hnext hw
        rw [hst]
        simp only [Option.bind_eq_bind, Option.bind_some]
        rcases ih sw1 next s1 hr hnext with ⟨k1, l, k2⟩ | ⟨l, r, sw', k1, k2, k3, k4, k5⟩
        · left
          rw [k1]
          exact ⟨rfl, n :: l, hw _ _ k2⟩
        · right
          rw [k1]
          exact ⟨n :: l, r, sw', rfl, k2, hw _ _ k3, k4, fun a b e => by rw [List.length_cons, k5 a b e]⟩
      cases d with
      | cond ev t f =>
        have hst : sw.step sem n s = (ev s).map fun b => ((if b then t.getD none else f.getD none), s, sw) := by
          rw [Sw.step, hn]
          simp only [Option.bind_eq_bind]
          cases ev s <;> rfl
        cases hev : ev s with
        | none =>
          left
          rw [hst, hev]
          exact ⟨rfl, [n], .condU he' hd hev⟩
        | some b =>
          rw [hev, Option.map_some] at hst
          refine key _ _ _ hst h ?_ ?_
          · intro m hm
            refine h.closed n _ m hd ?_
            cases b
            · right
              cases hf : f with
              | none => rw [hf] at hm; cases hm
              | some x => rw [hf] at hm; exact congrArg some hm
            · left
              cases ht : t with
              | none => rw [ht] at hm; cases hm
              | some x => rw [ht] at hm; exact congrArg some hm
          · intro l r w
            refine .cond he' hd hev ?_
            cases b <;> exact w
      | call fn next =>
        have hst : sw.step sem n s = (sem.act fn [] s).map fun s' => (next, s', sw) := by
          rw [Sw.step, hn]
          simp only [Option.bind_eq_bind]
          cases sem.act fn [] s <;> rfl
        cases hact : sem.act fn [] s with
        | none =>
          left
          rw [hst, hact]
          exact ⟨rfl, [n], .callU he' hd hact⟩
        | some s' =>
          rw [hact, Option.map_some] at hst
          exact key _ _ _ hst h (fun m hm => h.closed n _ m hd hm) fun l r w => .call he' hd hact w
      | table t =>
        obtain ⟨tab, E, hn, hrep, hz1, hz2⟩ := hn
        obtain ⟨out, tab', s', E', e1, r1, z1, z2, st⟩ :=
          hrep.exec (.apply (t.key s) (t.nbytes s) (t.ts s)) ((h.wf n t hd).2.2 s)
        rw [hz1, hz2] at st
        rw [hz1] at z1
        rw [hz2] at z2
        simp only [Tab.exec, Option.map_eq_some_iff, Prod.mk.injEq] at e1
        obtain ⟨⟨a, tab1⟩, e1, e2, rfl⟩ := e1
        have hs' : s' = T n := st.1
        subst hs'
        subst e2
        have hstep := st
        have hnext : ∀ m, a.next = some m → m ∈ P.names := by
          intro m hm
          refine h.closed n _ m hd ?_
          rcases st.2 with ⟨-, hout⟩ | ⟨h0, k0, a0, -, -, -, hout⟩
          · simp only [AOut.ran.injEq] at hout
            exact goto_names (hout.2.2.2.symm.trans hm)
          · simp only [AOut.ran.injEq] at hout
            exact goto_names (hout.2.2.2.symm.trans hm)
        have hst : sw.step sem n s = (sem.run a.act (sem.mark a.hit a.index s)).map fun s' =>
            (a.next, s', sw.set n (.table t tab1)) := by
          rw [Sw.step, hn]
          simp only [Option.bind_eq_bind, e1, Option.bind_some]
          cases sem.run a.act (sem.mark a.hit a.index s) <;> rfl
        have hrel : Rel (sw.set n (.table t tab1)) P T := by
          have := rel_table h hd r1 z1 z2
          have hT : (fun m => if h : m = n then h ▸ T n else T m) = T := by
            funext m
            by_cases hm : m = n
            · subst hm; simp
            · simp [hm]
          rwa [hT] at this
        cases hact : sem.run a.act (sem.mark a.hit a.index s) with
        | none =>
          left
          rw [hst, hact]
          exact ⟨rfl, [n], .tableU he' hd hstep hact⟩
        | some s1 =>
          rw [hact, Option.map_some] at hst
          exact key _ _ _ hst hrel hnext fun l r w => .table he' hd hstep hact w

/-! ## Histories -/

/-- One event. -/
def Sw.exec (sem : Sem σ) (sw : Sw kind R σ) : Op (KeyOf kind) σ → Option (Out (KeyOf kind) σ × Sw kind R σ)
  | .table n op =>
    match sw.nodes n with
    | some (.table t tab) => (tab.exec op).map fun r => (.table n r.1, sw.set n (.table t r.2))
    | _ => none
  | .packet pipe fuel s => do
    let (l, r, sw) ← sw.apply sem fuel (← sw.firsts[pipe]?) s
    return (.packet l r, sw)

/-- A history, up to the first undefined event. -/
def Sw.run (sem : Sem σ) : Sw kind R σ → List (Op (KeyOf kind) σ) → List (Out (KeyOf kind) σ)
  | _, [] => []
  | sw, op :: ops =>
    match sw.exec sem op with
    | none => [.undefined]
    | some (o, sw) => o :: Sw.run sem sw ops

theorem run_ok (sem : Sem σ) {P : Prog (KeyOf kind) σ} :
    ∀ (ops : List (Op (KeyOf kind) σ)) (sw : Sw kind R σ) (T : (n : Nat) → AState (KeyOf kind n)), Rel sw P T →
      (∀ op ∈ ops, op.Valid (fun n => (kind n).spec) P) →
      Trace sem (fun n => (kind n).spec) P T ops (sw.run sem ops)
  | [], sw, T, _, _ => .nil T
  | op :: ops, sw, T, h, hv => by
    have hop := hv op (List.mem_cons_self ..)
    have hrest := fun o ho => hv o (List.mem_cons_of_mem _ ho)
    rw [Sw.run]
    cases op with
    | table n op =>
      obtain ⟨t, ht, hval⟩ := hop
      obtain ⟨tab, E, hn, hrep, hz1, hz2⟩ := h.node n _ ht
      obtain ⟨out, tab', s', E', e1, r1, z1, z2, st⟩ := hrep.exec op hval
      rw [hz1, hz2] at st
      rw [hz1] at z1
      rw [hz2] at z2
      have : sw.exec sem (.table n op) = some (.table n out, sw.set n (.table t tab')) := by
        simp only [Sw.exec, hn, e1, Option.map_some]
      rw [this]
      exact .table ht st (run_ok sem ops _ _ (rel_table h ht r1 z1 z2) hrest)
    | packet pipe fuel s =>
      have hp : P[pipe]? = some P[pipe] := List.getElem?_eq_getElem hop
      have hf : sw.firsts[pipe]? = some P[pipe].first := by rw [h.firsts, List.getElem?_map, hp]; rfl
      rcases walk_ok sem fuel sw P[pipe].first s h (h.first _ (List.getElem_mem hop)) with
        ⟨k1, l, k2⟩ | ⟨l, r, sw', k1, k2, k3, k4, k5⟩
      · have : sw.exec sem (.packet pipe fuel s) = none := by
          simp only [Sw.exec, hf, Option.bind_eq_bind, Option.bind_some, k1, Option.bind_none]
        rw [this]
        exact .dead hp k2
      · have : sw.exec sem (.packet pipe fuel s) = some (.packet l r, sw') := by
          simp only [Sw.exec, hf, Option.bind_eq_bind, Option.bind_some, k1]
          rfl
        rw [this]
        exact .packet hp k3 k5 k4 (run_ok sem ops sw' T k2 hrest)

end Bm.Pipe
