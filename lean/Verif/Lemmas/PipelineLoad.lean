import Verif.Lemmas.Pipeline

/-!
# Sound programs are loaded; walks in programs without cycles
-/

namespace Bm.Pipe
open Spec MT
variable {kind : Nat → TableKind} {R σ : Type} {meters : Nat → R}

theorem add_some : ∀ (l : Decls kind σ) (sw : Sw kind R σ), (∀ n ∈ l.map Sigma.fst, sw.nodes n = none) →
    (l.map Sigma.fst).Nodup → (∀ x ∈ l, ∃ nd, create meters x.2 = some nd) →
    ∃ sw', l.foldlM (Sw.add meters) sw = some sw'
  | [], sw, _, _, _ => ⟨sw, rfl⟩
  | x :: l, sw, h1, h2, h3 => by
    obtain ⟨nd, hnd⟩ := h3 x (List.mem_cons_self ..)
    rw [List.map_cons, List.nodup_cons] at h2
    have hx := h1 x.1 (by simp)
    have e : sw.add meters x = some (sw.set x.1 nd) := by
      simp only [Sw.add, hnd, Option.bind_eq_bind, Option.bind_some, hx]
      rfl
    obtain ⟨sw', e'⟩ := add_some l (sw.set x.1 nd) (fun n hn => by
      rw [set_other sw nd (by rintro rfl; exact h2.1 hn)]
      exact h1 n (by rw [List.map_cons]; exact List.mem_cons_of_mem _ hn)) h2.2
      fun y hy => h3 y (List.mem_cons_of_mem _ hy)
    exact ⟨sw', by rw [List.foldlM_cons, e]; exact e'⟩

theorem connect_some : ∀ (l : Decls kind σ) (sw : Sw kind R σ), (∀ x ∈ l, ∃ nd, sw.resolve meters x.2 = some nd) →
    ∃ sw', l.foldlM (Sw.connect meters) sw = some sw'
  | [], sw, _ => ⟨sw, rfl⟩
  | x :: l, sw, h => by
    obtain ⟨nd, hnd⟩ := h x (List.mem_cons_self ..)
    have d1 : Dom sw (sw.set x.1 nd) := by
      intro m hm
      by_cases h : m = x.1
      · subst h; rw [set_same]; rfl
      · rwa [set_other _ _ h]
    obtain ⟨sw', e'⟩ := connect_some l (sw.set x.1 nd) fun y hy => by
      obtain ⟨nd', h'⟩ := h y (List.mem_cons_of_mem _ hy)
      exact ⟨nd', resolve_mono d1 h'⟩
    exact ⟨sw', by rw [List.foldlM_cons, Sw.connect, hnd]; exact e'⟩

theorem resolve_some {sw : Sw kind R σ} {n : Nat} {d : NodeDecl (KeyOf kind n) σ} (h : d.Sound (kind n).spec)
    (hk : ∀ m, d.Names m → sw.known (some m) = true) : ∃ nd, sw.resolve meters d = some nd := by
  have known : ∀ o : Option Nat, (∀ m, o = some m → d.Names m) → sw.known o = true := by
    intro o ho
    cases o with
    | none => rfl
    | some m => exact hk m (ho m rfl)
  cases d with
  | table t =>
    obtain ⟨tab, ht⟩ := load_some (kind n).laws t.decl h.2 h.1 meters
    refine ⟨.table t tab, ?_⟩
    rw [Sw.resolve, if_pos, ht]
    · rfl
    · rw [List.all_eq_true]
      rintro o ho
      exact known o fun m hm => (refs_iff _ _).1 (hm ▸ ho)
  | cond ev t f =>
    refine ⟨.cond ev (t.getD none) (f.getD none), ?_⟩
    rw [Sw.resolve, if_neg, if_pos]
    · rw [Bool.and_eq_true]
      refine ⟨known _ fun m hm => .inl ?_, known _ fun m hm => .inr ?_⟩
      · cases t with
        | none => cases hm
        | some x => exact congrArg some hm
      · cases f with
        | none => cases hm
        | some x => exact congrArg some hm
    · rintro ⟨rfl, rfl⟩
      rcases h with h | h <;> exact h rfl
  | call fn next =>
    exact ⟨.call fn next, by rw [Sw.resolve, if_pos (known _ fun m hm => hm)]⟩

theorem loadPipe_some {sw : Sw kind R σ} {P : Prog (KeyOf kind) σ} (h : Conn meters sw P) {p : PipeDecl (KeyOf kind) σ}
    (hnd : (Prog.names (P ++ [p])).Nodup) (hs : ∀ x ∈ p.nodes, x.2.Sound (kind x.1).spec)
    (hc : ∀ x ∈ p.nodes, ∀ m, x.2.Names m → m ∈ Prog.names (P ++ [p]))
    (hf : ∀ m, p.first = some m → m ∈ Prog.names (P ++ [p])) : ∃ sw', sw.loadPipe meters p = some sw' := by
  have hone : Prog.names [p] = p.nodes.map Sigma.fst := by simp [Prog.names]
  rw [names_append, hone] at hnd hc hf
  obtain ⟨-, n2, n3⟩ := List.nodup_append.1 hnd
  obtain ⟨sw1, e1⟩ := add_some (meters := meters) p.nodes sw (by
    intro n hn
    by_contra hne
    have : n ∈ P.names := (h.dom n).1 (by simpa [Option.isSome_iff_ne_none] using hne)
    exact n3 n this n hn rfl) n2 (by
    intro x hx
    have := hs x hx
    obtain ⟨n, d⟩ := x
    cases d with
    | table t => exact ⟨_, rfl⟩
    | cond ev t f => exact ⟨_, rfl⟩
    | call fn next =>
      have h0 : fn.nparams = 0 := this
      exact ⟨.call fn none, by simp [create, h0]⟩)
  obtain ⟨a1, a2, a3, a4, a5⟩ := add_fold _ _ _ e1
  have hdom : ∀ m, m ∈ Prog.names P ++ p.nodes.map Sigma.fst → (sw1.nodes m).isSome = true := by
    intro m hm
    by_cases hmem : m ∈ p.nodes.map Sigma.fst
    · exact a4 m hmem
    · rw [a3 m hmem]
      exact (h.dom m).2 ((List.mem_append.1 hm).resolve_right hmem)
  obtain ⟨sw2, e2⟩ := connect_some (meters := meters) p.nodes sw1 fun x hx =>
    resolve_some (hs x hx) fun m hm => hdom m (hc x hx m hm)
  obtain ⟨-, -, ⟨b3, -⟩, -⟩ := connect_fold _ _ _ a2 a4 e2
  have hk : sw2.known p.first = true := by
    cases hp : p.first with
    | none => rfl
    | some m => exact b3 m (hdom m (hf m hp))
  exact ⟨{ sw2 with firsts := sw2.firsts ++ [p.first] }, by
    simp only [Sw.loadPipe, e1, e2, Option.bind_eq_bind, Option.bind_some, if_pos hk]⟩

theorem load_sound {whole : Prog (KeyOf kind) σ} (h : whole.Sound fun n => (kind n).spec) :
    ∀ (Q P : Prog (KeyOf kind) σ) (sw : Sw kind R σ), whole = P ++ Q → Conn meters sw P →
      ∃ sw', Q.foldlM (Sw.loadPipe meters) sw = some sw'
  | [], P, sw, _, _ => ⟨sw, rfl⟩
  | p :: Q, P, sw, e, hc => by
    have hi : whole[P.length]? = some p := by rw [e]; simp
    have htake : whole.take (P.length + 1) = P ++ [p] := by rw [e, List.take_length_add_append]; rfl
    obtain ⟨c1, c2⟩ := h.closed P.length p hi
    rw [htake] at c1 c2
    have hmem : p ∈ whole := by rw [e]; simp
    obtain ⟨sw1, e1⟩ := loadPipe_some hc (by
      have := h.nodup
      rw [e, show P ++ p :: Q = (P ++ [p]) ++ Q by simp, names_append] at this
      exact (List.nodup_append.1 this).1) (fun x hx => h.nodes x.1 x.2 ⟨p, hmem, hx⟩) c1 c2
    obtain ⟨sw', e'⟩ := load_sound h Q (P ++ [p]) sw1 (by rw [e]; simp) (conn_step hc e1)
    exact ⟨sw', by rw [List.foldlM_cons, e1]; exact e'⟩

/-! ## Acyclic programs -/

/-- The node a walk is at. -/
def Stop.node : Stop σ → List Nat
  | .atNode n _ => [n]
  | _ => []

theorem walk_rank {K : Nat → Type} {sem : Sem σ} {sp : (n : Nat) → MatchSpec (K n)} {P : Prog K σ}
    {T : (n : Nat) → AState (K n)} {rank : Nat → Nat}
    (hr : ∀ n (d : NodeDecl (K n) σ) m, P.Has n d → d.Names m → rank m < rank n)
    {start : Option Nat} {s : σ} {l : List Nat} {r : Stop σ} (w : Walk sem sp P T start s l r) :
    (l ++ r.node).Pairwise (fun a b => rank b < rank a) ∧ ∀ x ∈ l ++ r.node, ∃ n, start = some n ∧ rank x ≤ rank n := by
  have step : ∀ {n : Nat} {next : Option Nat} {l : List Nat} {r : Stop σ}, (∀ m, next = some m → rank m < rank n) →
      ((l ++ r.node).Pairwise (fun a b => rank b < rank a) ∧ ∀ x ∈ l ++ r.node, ∃ n, next = some n ∧ rank x ≤ rank n) →
      (((n :: l) ++ r.node).Pairwise (fun a b => rank b < rank a) ∧
        ∀ x ∈ (n :: l) ++ r.node, ∃ m, some n = some m ∧ rank x ≤ rank m) := by
    rintro n next l r hlt ⟨h1, h2⟩
    rw [List.cons_append, List.pairwise_cons]
    have : ∀ x ∈ l ++ r.node, rank x < rank n := by
      intro x hx
      obtain ⟨m, hm, hle⟩ := h2 x hx
      exact Nat.lt_of_le_of_lt hle (hlt m hm)
    refine ⟨⟨this, h1⟩, ?_⟩
    intro x hx
    rw [List.mem_cons] at hx
    rcases hx with rfl | hx
    · exact ⟨_, rfl, Nat.le_refl _⟩
    · exact ⟨n, rfl, Nat.le_of_lt (this x hx)⟩
  have one : ∀ {n : Nat}, (([n] ++ (Stop.undefined (σ := σ)).node).Pairwise (fun a b => rank b < rank a) ∧
        ∀ x ∈ [n] ++ (Stop.undefined (σ := σ)).node, ∃ m, some n = some m ∧ rank x ≤ rank m) := by
    intro n
    simp [Stop.node]
  induction w with
  | stop s => simp [Stop.node]
  | exit n s h => simp [Stop.node]
  | pause n s h => simp [Stop.node]
  | @cond n s ev t f b l r he hd hev w ih =>
    refine step ?_ ih
    intro m hm
    refine hr n _ m hd ?_
    cases b
    · right
      cases f with
      | none => cases hm
      | some x => exact congrArg some hm
    · left
      cases t with
      | none => cases hm
      | some x => exact congrArg some hm
  | condU he hd hev => exact one
  | @call n s fn next s' l r he hd ha w ih => exact step (fun m hm => hr n _ m hd hm) ih
  | callU he hd ha => exact one
  | @table n s t a hit index next s' l r he hd hst ha w ih =>
    refine step ?_ ih
    intro m hm
    refine hr n _ m hd ?_
    rcases hst.2 with ⟨-, hout⟩ | ⟨h0, k0, a0, -, -, -, hout⟩
    · simp only [AOut.ran.injEq] at hout
      exact goto_names (hout.2.2.2.symm.trans hm)
    · simp only [AOut.ran.injEq] at hout
      exact goto_names (hout.2.2.2.symm.trans hm)
  | tableU he hd hst ha => exact one

theorem walk_names {kind : Nat → TableKind} {sem : Sem σ} {sp : (n : Nat) → MatchSpec (KeyOf kind n)}
    {P : Prog (KeyOf kind) σ} {T : (n : Nat) → AState (KeyOf kind n)}
    (hc : ∀ n (d : NodeDecl (KeyOf kind n) σ) m, P.Has n d → d.Names m → m ∈ P.names)
    {start : Option Nat} {s : σ} {l : List Nat} {r : Stop σ} (w : Walk sem sp P T start s l r)
    (hs : ∀ m, start = some m → m ∈ P.names) : ∀ x ∈ l ++ r.node, x ∈ P.names := by
  induction w with
  | stop s => simp [Stop.node]
  | exit n s h => simp [Stop.node]
  | pause n s h => simpa [Stop.node] using hs n rfl
  | @cond n s ev t f b l r he hd hev w ih =>
    intro x hx
    rw [List.cons_append, List.mem_cons] at hx
    rcases hx with rfl | hx
    · exact hs _ rfl
    · refine ih (fun m hm => hc n _ m hd ?_) x hx
      cases b
      · right
        cases f with
        | none => cases hm
        | some x => exact congrArg some hm
      · left
        cases t with
        | none => cases hm
        | some x => exact congrArg some hm
  | condU he hd hev => intro x hx; simp [Stop.node] at hx; exact hs _ (by rw [hx])
  | @call n s fn next s' l r he hd ha w ih =>
    intro x hx
    rw [List.cons_append, List.mem_cons] at hx
    rcases hx with rfl | hx
    · exact hs _ rfl
    · exact ih (fun m hm => hc n _ m hd hm) x hx
  | callU he hd ha => intro x hx; simp [Stop.node] at hx; exact hs _ (by rw [hx])
  | @table n s t a hit index next s' l r he hd hst ha w ih =>
    intro x hx
    rw [List.cons_append, List.mem_cons] at hx
    rcases hx with rfl | hx
    · exact hs _ rfl
    · refine ih (fun m hm => hc n _ m hd ?_) x hx
      rcases hst.2 with ⟨-, hout⟩ | ⟨h0, k0, a0, -, -, -, hout⟩
      · simp only [AOut.ran.injEq] at hout
        exact goto_names (hout.2.2.2.symm.trans hm)
      · simp only [AOut.ran.injEq] at hout
        exact goto_names (hout.2.2.2.symm.trans hm)
  | tableU he hd hst ha => intro x hx; simp [Stop.node] at hx; exact hs _ (by rw [hx])

theorem walk_short {kind : Nat → TableKind} {sem : Sem σ} {sp : (n : Nat) → MatchSpec (KeyOf kind n)}
    {P : Prog (KeyOf kind) σ} {T : (n : Nat) → AState (KeyOf kind n)} (ha : P.Acyclic)
    (hc : ∀ n (d : NodeDecl (KeyOf kind n) σ) m, P.Has n d → d.Names m → m ∈ P.names)
    {start : Option Nat} {s : σ} {l : List Nat} {r : Stop σ} (w : Walk sem sp P T start s l r)
    (hs : ∀ m, start = some m → m ∈ P.names) :
    l.Nodup ∧ (l ++ r.node).length ≤ P.names.length := by
  obtain ⟨rank, hr⟩ := ha
  have hp := (walk_rank hr w).1
  have hnd : (l ++ r.node).Nodup := by
    refine hp.imp ?_
    rintro a b hab rfl
    omega
  refine ⟨(List.nodup_append.1 hnd).1, ?_⟩
  exact (List.subperm_of_subset hnd fun x hx => walk_names hc w hs x hx).length_le

end Bm.Pipe
