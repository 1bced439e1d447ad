import Verif.Lemmas.PipelineLoad

/-!
# C66: packets follow the control flow of the program

For every program that is loaded, every history of control-plane calls and packets.
-/

namespace Bm.Pipe
open Spec MT
variable {kind : Nat → TableKind} {R σ : Type} {meters : Nat → R}

/-- **C66.** After loading, every history of calls on tables and of packets is as the program says (`Trace`): a packet
that enters a pipeline walks from its first node along the declared next nodes; a conditional goes where its value
says; a call runs its action; a table runs the action of the best matching entry, or its current default, and goes to the
node declared for hit, miss or that action; the walk ends where no node is named or when the packet is marked for
exit, and nowhere else.  Nothing is undefined but what an action or a condition of the program makes so. -/
theorem C66_control_flow (sem : Sem σ) {P : Prog (KeyOf kind) σ} (hw : P.WF fun n => (kind n).spec) {sw : Sw kind R σ}
    (e : load meters P = some sw) : ∃ T, P.Start T ∧ ∀ ops, (∀ op ∈ ops, op.Valid (fun n => (kind n).spec) P) →
      Trace sem (fun n => (kind n).spec) P T ops (sw.run sem ops) := by
  obtain ⟨T, h, hs⟩ := rel_load hw e
  exact ⟨T, hs, fun ops hv => run_ok sem ops sw T h hv⟩

/-- **C66.** Sound programs are accepted by the loader. -/
theorem C66_loads {P : Prog (KeyOf kind) σ} (h : P.Sound fun n => (kind n).spec) (meters : Nat → R) :
    ∃ sw : Sw kind R σ, load meters P = some sw :=
  load_sound h P [] _ rfl ⟨(by rintro n d ⟨p, hp, -⟩; cases hp), by simp [Prog.names], List.nodup_nil, rfl, by simp⟩

/-- **C66.** Programs in which two nodes have the same name are refused. -/
theorem C66_unique {P : Prog (KeyOf kind) σ} {sw : Sw kind R σ} (e : load meters P = some sw) : P.names.Nodup :=
  (conn_load e).nodup

theorem trace_short (sem : Sem σ) {P : Prog (KeyOf kind) σ} (ha : P.Acyclic)
    (hc : ∀ n (d : NodeDecl (KeyOf kind n) σ) m, P.Has n d → d.Names m → m ∈ P.names)
    (hf : ∀ p ∈ P, ∀ m, p.first = some m → m ∈ P.names) {T ops outs}
    (tr : Trace sem (fun n => (kind n).spec) P T ops outs) :
    ∀ (i pipe fuel : Nat) (s : σ) (l : List Nat) (r : Stop σ), ops[i]? = some (.packet pipe fuel s) →
      outs[i]? = some (.packet l r) → l.Nodup ∧ (P.names.length ≤ fuel → ∃ s', r = .ended s') := by
  induction tr with
  | nil T => intro i pipe fuel s l r h1; cases h1
  | table _ _ _ ih =>
    intro i pipe fuel s l r h1 h2
    cases i with
    | zero => cases h1
    | succ i => exact ih i pipe fuel s l r h1 h2
  | @packet T pipe fuel s p l r ops outs hp w hfuel hdef _ ih =>
    intro i pipe' fuel' s' l' r' h1 h2
    cases i with
    | succ i => exact ih i pipe' fuel' s' l' r' h1 h2
    | zero =>
      cases h1
      cases h2
      obtain ⟨k1, k2⟩ := walk_short ha hc w (hf p (List.mem_of_getElem? hp))
      refine ⟨k1, fun hle => ?_⟩
      cases r with
      | ended s' => exact ⟨s', rfl⟩
      | undefined => exact absurd rfl hdef
      | atNode n s' =>
        have := hfuel n s' rfl
        simp only [Stop.node, List.length_append, List.length_cons, List.length_nil] at k2
        omega
  | dead hp w =>
    intro i pipe' fuel' s' l' r' h1 h2
    cases i with
    | zero => cases h2
    | succ i => cases h2

/-- **C66.** In a program without cycles every packet gets to the end of its pipeline, after at most as many steps as
there are nodes, and visits no node twice. -/
theorem C66_terminates (sem : Sem σ) {P : Prog (KeyOf kind) σ} (hw : P.WF fun n => (kind n).spec) (ha : P.Acyclic)
    {sw : Sw kind R σ} (e : load meters P = some sw) (ops : List (Op (KeyOf kind) σ))
    (hv : ∀ op ∈ ops, op.Valid (fun n => (kind n).spec) P) (i pipe fuel : Nat) (s : σ) (l : List Nat) (r : Stop σ)
    (h1 : ops[i]? = some (.packet pipe fuel s)) (h2 : (sw.run sem ops)[i]? = some (.packet l r)) :
    l.Nodup ∧ (P.names.length ≤ fuel → ∃ s', r = .ended s') := by
  obtain ⟨T, h, -⟩ := rel_load hw e
  exact trace_short sem ha h.closed h.first (run_ok sem ops sw T h hv) i pipe fuel s l r h1 h2

end Bm.Pipe

/-! ## Concrete cases -/

namespace Bm.Pipe.Ex
open Spec MT

/-- A packet: one byte of key, a field, the exit flag. -/
structure Pkt where
  key : UInt8
  out : Int
  exit : Bool
deriving DecidableEq

/-- `set(v)`, `inc()`, `exit()`. -/
def aSet : ActFn := ⟨1, 1⟩
def aInc : ActFn := ⟨2, 0⟩
def aExit : ActFn := ⟨3, 0⟩

/-- Their meaning. -/
def sem : Sem Pkt where
  exit p := p.exit
  act f d p :=
    match f.id, d with
    | 1, [v] => some { p with out := v }
    | 2, [] => some { p with out := p.out + 1 }
    | 3, [] => some { p with exit := true }
    | _, _ => none
  mark _ _ p := p

/-- All tables are exact with keys of one byte. -/
def kind : Nat → TableKind := fun _ => .exact 1

/-- A table on the key. -/
def tab (d : TableDecl Bytes) : TableNode Bytes Pkt :=
  { decl := d, size := 4, sizeKey := 1, key := fun p => [p.key], nbytes := fun _ => 64, ts := fun _ => 0 }

/-- Table 0: after `set` go to 1, after `exit` go to 2. -/
def d0 : TableDecl Bytes :=
  { actions := [(aSet, some 1), (aExit, some 2)], hitMiss := none, base := some (some 2), dflt := none, entries := none }

/-- Ingress: table 0, conditional 1 (`out > 5`, go to 2 or end), call 2 (`inc`).  Egress: call 3 (`inc`). -/
def prog : Prog (KeyOf kind) Pkt :=
  [{ nodes := [⟨0, .table (tab d0)⟩, ⟨1, .cond (fun p => some (decide (p.out > 5))) (some (some 2)) (some none)⟩,
      ⟨2, .call aInc none⟩], first := some 0 },
   { nodes := [⟨3, .call aInc none⟩], first := some 3 }]

/-- Packets only. -/
def show' : Out (KeyOf kind) Pkt → Option (List Nat × Option Pkt)
  | .packet l (.ended p) => some (l, some p)
  | .packet l _ => some (l, none)
  | _ => none

/-- Loading and running. -/
def go (P : Prog (KeyOf kind) Pkt) (ops : List (Op (KeyOf kind) Pkt)) : Option (List (Option (List Nat × Option Pkt))) :=
  (load (fun _ => ()) P).map fun sw => (sw.run sem ops).map show'

/-- Misses go to 2; entries with `set` to 1 and from there to 2 or the end; `exit` skips 2. -/
example : go prog [.packet 0 4 ⟨7, 0, false⟩, .table 0 (.add (some [7]) aSet [9] 0), .packet 0 4 ⟨7, 0, false⟩,
      .table 0 (.modify 0 aSet [3]), .packet 0 4 ⟨7, 0, false⟩, .table 0 (.modify 0 aExit []), .packet 0 4 ⟨7, 0, false⟩,
      .packet 1 4 ⟨7, 0, false⟩, .packet 1 4 ⟨7, 0, true⟩] =
    some [some ([0, 2], some ⟨7, 1, false⟩), none, some ([0, 1, 2], some ⟨7, 10, false⟩), none,
      some ([0, 1], some ⟨7, 3, false⟩), none, some ([0], some ⟨7, 0, true⟩), some ([3], some ⟨7, 1, false⟩),
      some ([], some ⟨7, 0, true⟩)] := by
  decide +kernel

theorem d0_sound : d0.Sound (exactSpec 1) 4 false where
  ids := by decide
  entries := by intro l h; simp [d0] at h
  dflt := by intro d h; simp [d0] at h
  key := by decide
  data := by intro e h; simp [d0] at h
  fits := by decide
  distinct := List.Pairwise.nil

theorem has_prog {n : Nat} {d : NodeDecl (KeyOf kind n) Pkt} (h : Prog.Has prog n d) :
    (n = 0 ∧ d = .table (tab d0)) ∨ (n = 1 ∧ ∃ ev, d = .cond ev (some (some 2)) (some none)) ∨
    (n = 2 ∧ d = .call aInc none) ∨ (n = 3 ∧ d = .call aInc none) := by
  obtain ⟨p, hp, hd⟩ := h
  simp only [prog, List.mem_cons, List.not_mem_nil, or_false] at hp
  rcases hp with rfl | rfl
  · simp only [List.mem_cons, List.not_mem_nil, or_false] at hd
    rcases hd with hd | hd | hd <;> cases hd
    · exact .inl ⟨rfl, rfl⟩
    · exact .inr (.inl ⟨rfl, _, rfl⟩)
    · exact .inr (.inr (.inl ⟨rfl, rfl⟩))
  · simp only [List.mem_cons, List.not_mem_nil, or_false] at hd
    cases hd
    exact .inr (.inr (.inr ⟨rfl, rfl⟩))

theorem names_d0 {m : Nat} (h : TableDecl.Names d0 m) : m = 1 ∨ m = 2 := by
  rcases h with ⟨x, hx, h⟩ | ⟨x, hx, -⟩ | h
  · simp only [d0, List.mem_cons, List.not_mem_nil, or_false] at hx
    rcases hx with rfl | rfl
    · cases h; exact .inl rfl
    · cases h; exact .inr rfl
  · cases hx
  · cases h; exact .inr rfl

/-- The hypotheses are met. -/
example : Prog.WF (fun n => (kind n).spec) prog := by
  intro n t h
  rcases has_prog h with ⟨rfl, h⟩ | ⟨rfl, _, h⟩ | ⟨rfl, h⟩ | ⟨rfl, h⟩ <;> cases h
  exact ⟨d0_sound.toWF, by decide, fun s => rfl⟩

example : Prog.Acyclic prog := by
  refine ⟨fun n => 10 - n, ?_⟩
  intro n d m h hm
  rcases has_prog h with ⟨rfl, rfl⟩ | ⟨rfl, _, rfl⟩ | ⟨rfl, rfl⟩ | ⟨rfl, rfl⟩
  · rcases names_d0 hm with rfl | rfl <;> decide
  · rcases hm with h | h
    · cases h; decide
    · cases h
  · cases hm
  · cases hm

example : Prog.Sound (fun n => (kind n).spec) prog where
  nodup := by decide
  nodes := by
    intro n d h
    rcases has_prog h with ⟨rfl, rfl⟩ | ⟨rfl, _, rfl⟩ | ⟨rfl, rfl⟩ | ⟨rfl, rfl⟩
    · exact ⟨d0_sound, by decide⟩
    · exact .inl (by decide)
    · rfl
    · rfl
  closed := by
    intro i p hp
    match i with
    | 0 =>
      cases hp
      refine ⟨?_, by intro m h; cases h; decide⟩
      intro x hx m hm
      simp only [List.mem_cons, List.not_mem_nil, or_false] at hx
      rcases hx with rfl | rfl | rfl
      · rcases names_d0 hm with rfl | rfl <;> decide
      · rcases hm with h | h
        · cases h; decide
        · cases h
      · cases hm
    | 1 =>
      cases hp
      refine ⟨?_, by intro m h; cases h; decide⟩
      intro x hx m hm
      simp only [List.mem_cons, List.not_mem_nil, or_false] at hx
      subst hx
      cases hm
    | i + 2 => cases hp

/-- A node that calls an action and goes back to itself. -/
def loop : Prog (KeyOf kind) Pkt := [{ nodes := [⟨0, .call aInc (some 0)⟩], first := some 0 }]

/-- **Programs with cycles are accepted**, and packets then never leave the pipeline: after any number of steps the packet
is still at the node. -/
theorem C66_cycle : ∃ sw, load (fun _ => ()) loop = some sw ∧
    ∀ fuel p, p.exit = false → ∃ l p', sw.run sem [.packet 0 fuel p] = [.packet l (.atNode 0 p')] ∧ l.length = fuel := by
  obtain ⟨sw, hsw⟩ : ∃ sw, load (fun _ => ()) loop = some sw := Option.isSome_iff_exists.1 (by decide +kernel)
  refine ⟨sw, hsw, ?_⟩
  have hn : sw.nodes 0 = some (.call aInc (some 0)) ∧ sw.firsts[0]? = some (some 0) := by
    have c := conn_load hsw
    obtain ⟨nd, k1, k2⟩ := c.node 0 (.call aInc (some 0)) ⟨_, List.mem_singleton.2 rfl, List.mem_singleton.2 rfl⟩
    simp only [Sw.resolve] at k1
    split at k1
    · cases k1
      exact ⟨k2, by rw [c.firsts]; rfl⟩
    · cases k1
  have key : ∀ fuel p, p.exit = false →
      ∃ l p', sw.apply sem fuel (some 0) p = some (l, .atNode 0 p', sw) ∧ l.length = fuel := by
    intro fuel
    induction fuel with
    | zero =>
      intro p hp
      exact ⟨[], p, by simp [Sw.apply, sem, hp], rfl⟩
    | succ fuel ih =>
      intro p hp
      obtain ⟨l, p', e, hl⟩ := ih { p with out := p.out + 1 } hp
      refine ⟨0 :: l, p', ?_, by rw [List.length_cons, hl]⟩
      rw [Sw.apply, if_neg (by simp [sem, hp]), Sw.step, hn.1]
      simp only [Option.bind_eq_bind]
      have : sem.act aInc [] p = some { p with out := p.out + 1 } := rfl
      rw [this]
      simp only [Option.bind_some, pure]
      rw [e]
      rfl
  intro fuel p hp
  obtain ⟨l, p', e, hl⟩ := key fuel p hp
  refine ⟨l, p', ?_, hl⟩
  have : sw.exec sem (.packet 0 fuel p) = some (.packet l (.atNode 0 p'), sw) := by
    simp only [Sw.exec, hn.2, Option.bind_eq_bind, Option.bind_some, e]
    rfl
  rw [Sw.run, this]
  rfl

end Bm.Pipe.Ex
