import Verif.Lemmas.SaveTab

/-!
# C67: saving and restoring tables

For every exact or LPM table, every declaration and every history before and after the save; and, for every ternary or
range table, what a restore does to it.
-/

namespace Bm.Save
open Spec MT
variable {D R : Type}

/-- The full property, for one table: saving its state at any point of any history and restoring it to a freshly loaded
table of the same program cannot be noticed: what follows is allowed by the specification of tables (`ATrace`, see C61)
from the state in which the save was made.  (`C` restricts the histories before and after; nothing in the full
property.) -/
def Transparent (D : Type) (t : TableKind) (P : TableDecl t.K) (size : Nat) (m0 : Nat → R) (o : Objs) (mio : MeterIO D R)
    (name : List Char) (C : List (AOp t.K) → List (AOp t.K) → Prop := fun _ _ => True) : Prop :=
  ∀ (T0 : Tab t.str R), Tab.load t.str size (nbytes t) m0 P = some T0 →
  ∀ ops ops' : List (AOp t.K), C ops ops' → (∀ op ∈ ops ++ ops', op.Valid P t.spec) →
  ∃ outs T1 txt T2 outs' T3 s0 s1 s2, T0.run ops = some (outs, T1) ∧
    saveTab o mio name T1 = some txt ∧ loadTab o mio name 0 T0 txt = some (T2, []) ∧ T2.run ops' = some (outs', T3) ∧
    P.Start s0 ∧ ATrace P t.spec size (decide (nbytes t = 0)) s0 ops outs s1 ∧
    ATrace P t.spec size (decide (nbytes t = 0)) s1 ops' outs' s2

/-- **C67 (partial).**  The full property is `Transparent`, for every table; it is false (`Ex.C67_refuted_…`, and
`C67_ternary_never_hits`).  Proved for exact and LPM tables without constant entries, whose declared default action has
no data, for histories in which no negative number was given as data; if the last node of the pipeline is not reached
through the current default action only (`hnext`); and for what follows the restore, if no entry is added, or if slot 0
was free when the state was saved.  Time-outs are kept; counters restart from 0; meters become what `rt` says.
The text is refused by a table with another name. -/
theorem C67_save_restore_partial (t : TableKind) (hc : Copies t) (P : TableDecl t.K) (hw : P.WF t.spec)
    (hent : P.entries = none) (hdd : ∀ d, P.dflt = some d → d.data = []) (size : Nat) (hs : size ≤ 2 ^ 24) (m0 : Nat → R)
    (o : Objs) (ho : o.Ok P) (mio : MeterIO D R) (rt : R → R → R) (hm : mio.Round rt) (name : List Char) (hname : name ≠ [])
    (now : Nat) (T0 : Tab t.str R) (e0 : Tab.load t.str size (nbytes t) m0 P = some T0)
    (ops : List (AOp t.K)) (hv : ∀ op ∈ ops, op.Valid P t.spec) (hpos : ∀ op ∈ ops, NonNeg op) :
    ∃ outs T1 s0 s1, T0.run ops = some (outs, T1) ∧ P.Start s0 ∧
      ATrace P t.spec size (decide (nbytes t = 0)) s0 ops outs s1 ∧
      ((P.goto false s1.D = none → P.goto false P.default0 = none) →
        ∃ txt T2, saveTab o mio name T1 = some txt ∧
          (∀ rest, loadTab o mio name now T0 (txt ++ rest) = some (T2, rest)) ∧
          (∀ name' rest, name' ≠ name → loadTab o mio name' now T0 (txt ++ rest) = none) ∧
          (∀ i < size, T2.mu.meters i = rt (m0 i) (T1.mu.meters i)) ∧
          (∀ h, (s1.T h).isSome = true →
            (T2.mu.metas (slotOf h)).timeoutMs = (T1.mu.metas (slotOf h)).timeoutMs ∧
            (T2.mu.metas (slotOf h)).ts = now ∧ (T2.mu.metas (slotOf h)).bytes = 0 ∧
            (T2.mu.metas (slotOf h)).packets = 0) ∧
          ∀ ops' : List (AOp t.K), (∀ op ∈ ops', op.Valid P t.spec) →
            ((∀ op ∈ ops', ∀ k f d n, op ≠ .add k f d n) ∨ ∀ h, slotOf h = 0 → s1.T h = none) →
            ∃ outs' T3 s2, T2.run ops' = some (outs', T3) ∧
              ATrace P t.spec size (decide (nbytes t = 0)) s1 ops' outs' s2) := by
  obtain ⟨outs, T1, s0, s1, e1, hst, tr, H⟩ := restore_tab hc hw hent hdd hs ho hm hname now e0 ops hv hpos
  refine ⟨outs, T1, s0, s1, e1, hst, tr, fun hnext => ?_⟩
  obtain ⟨txt, T2, E, e2, e3, e3', hr, z1, z2, hmet, hmeta, hfree⟩ := H hnext
  refine ⟨txt, zT T2, e2, e3, e3', hmet, ?_, ?_⟩
  · intro h hh
    have := hmeta h hh
    show (T2.mu.metas (slotOf h)).timeoutMs = _ ∧ (T2.mu.metas (slotOf h)).ts = _ ∧ (T2.mu.metas (slotOf h)).bytes = _ ∧
      (T2.mu.metas (slotOf h)).packets = _
    rw [this]
    exact ⟨rfl, rfl, rfl, rfl⟩
  · intro ops' hv' hcase
    obtain ⟨outs', T3, s2, E2, e4, -, tr2⟩ := hr.run ops' hv'
    rw [z1, z2] at tr2
    rcases hcase with hadd | hslot
    · refine ⟨outs', zT T3, s2, ?_, tr2⟩
      rw [run_z ops' T2 (fun op hop hadd' => by
        cases op with
        | add k f d n => exact hadd _ hop k f d n rfl
        | _ => exact hadd'), e4]
      rfl
    · exact ⟨outs', T3, s2, by rw [hfree hslot]; exact e4, tr2⟩

/-- **C67.**  Whatever is restored to a freshly loaded ternary or range table, no packet hits an entry of the table
afterwards: either every packet misses, or the lookup follows a dangling pointer. -/
theorem C67_ternary_never_hits (t : TableKind) (hc : ¬ Copies t) (P : TableDecl t.K) (hw : P.WF t.spec)
    (hent : P.entries = none) (size : Nat) (m0 : Nat → R) (o : Objs) (mio : MeterIO D R) (name : List Char) (now : Nat)
    (T0 : Tab t.str R) (e0 : Tab.load t.str size (nbytes t) m0 P = some T0) (txt rest : List (Tok D)) (T2 : Tab t.str R)
    (e : loadTab o mio name now T0 txt = some (T2, rest)) (q : Bytes) (n ts : Nat) (out : AOut t.K) (T3 : Tab t.str R)
    (e' : T2.exec (.apply q n ts) = some (out, T3)) : ∃ act idx next, out = .ran act none idx next := by
  obtain ⟨f1, -, -⟩ := load_fresh hw.ids hent e0
  have hd : DeadStr t T2.mu.lstr := by
    simp only [loadTab, Option.bind_eq_bind] at e
    obtain ⟨a1, -, e⟩ := Option.bind_eq_some_iff.1 e
    split at e
    · cases e
    obtain ⟨a2, -, e⟩ := Option.bind_eq_some_iff.1 e
    obtain ⟨a3, g, e⟩ := Option.bind_eq_some_iff.1 e
    obtain ⟨a4, -, e⟩ := Option.bind_eq_some_iff.1 e
    cases e
    simp only [loadUnit, Option.bind_eq_bind] at g
    obtain ⟨b1, -, g⟩ := Option.bind_eq_some_iff.1 g
    obtain ⟨b2, g1, g⟩ := Option.bind_eq_some_iff.1 g
    have := loadMeters_lstr mio _ _ _ _ _ _ g
    show DeadStr t a3.1.lstr
    rw [this]
    refine loadEntries_dead _ now _ _ _ _ _ ?_ g1
    show DeadStr t T0.mu.lstr
    rw [f1]
    exact deadStr_init t size
  simp only [Tab.exec, Option.map_eq_some_iff] at e'
  obtain ⟨r, e', e2⟩ := e'
  have e2 := congrArg Prod.fst e2
  simp only at e2
  subst e2
  simp only [Tab.apply, Option.bind_eq_bind] at e'
  obtain ⟨x, e1, e'⟩ := Option.bind_eq_some_iff.1 e'
  simp only [Option.pure_def, Option.some.injEq] at e'
  subst e'
  simp only [Tab.lookup, Option.bind_eq_bind] at e1
  obtain ⟨y, e1, e3⟩ := Option.bind_eq_some_iff.1 e1
  simp only [MUnit.lookup, Option.bind_eq_bind] at e1
  obtain ⟨w, e4, e1⟩ := Option.bind_eq_some_iff.1 e1
  have hw' := deadStr_lookup t hc hd (r := w.1) (s' := w.2) e4
  obtain ⟨w1, w2⟩ := w
  simp only at hw'
  subst hw'
  simp only [Option.pure_def, Option.some.injEq] at e1
  subst e1
  simp only [Option.pure_def, Option.some.injEq] at e3
  subst e3
  exact ⟨_, _, _, rfl⟩

/-! ## Concrete cases -/

namespace Ex

def a1 : ActFn := ⟨1, 1⟩
def a2 : ActFn := ⟨2, 2⟩

/-- Two actions and two nodes. -/
def o : Objs where
  act i := if i = 1 then some a1 else if i = 2 then some a2 else none
  node s := if s = ['n', '7'] then some 7 else if s = ['n', '9'] then some 9 else none
  nodeName n := if n = 7 then ['n', '7'] else ['n', '9']

/-- A table without default. -/
def P1 : TableDecl Bytes :=
  { actions := [(a1, some 7), (a2, none)], hitMiss := none, base := some (some 9), dflt := none, entries := none }

/-- A table with a default. -/
def P2 : TableDecl Bytes := { P1 with dflt := some ⟨a1, [5], false, false⟩ }

/-- A table with a constant entry. -/
def P3 : TableDecl Bytes := { P1 with entries := some [([1], a1, [42])] }

/-- An exact table with one-byte keys and two slots. -/
abbrev t1 : TableKind := .exact 1

/-- Run, save, restore, run. -/
def via (P : TableDecl Bytes) (ops ops' : List (AOp Bytes)) : Option (List (AOut Bytes) × List (AOut Bytes)) := do
  let T0 ← Tab.load t1.str 2 1 (fun _ => ()) P
  let (outs, T1) ← T0.run ops
  let txt ← saveTab o (noMeters Unit Unit) ['t'] T1
  let (T2, _) ← loadTab o (noMeters Unit Unit) ['t'] 0 T0 txt
  let (outs', _) ← T2.run ops'
  return (outs, outs')

theorem o_ok : o.Ok P1 where
  act := by decide
  dflt := by intro d h; simp [P1] at h
  node := by
    intro n h
    have : n = 7 ∨ n = 9 := by
      rcases h with ⟨x, hx, e⟩ | ⟨h, m, e, -⟩ | e
      · simp only [P1, List.mem_cons, List.not_mem_nil, or_false] at hx
        rcases hx with rfl | rfl
        · simp at e; omega
        · simp at e
      · simp [P1] at e
      · simp [P1] at e; omega
    rcases this with rfl | rfl <;> (unfold Objs.NodeOk; decide)

/-- The hypotheses of `C67_save_restore_partial` hold in a case with entries, also after the restore. -/
example : Copies t1 ∧ P1.WF t1.spec ∧ P1.entries = none ∧ (∀ d, P1.dflt = some d → d.data = []) ∧ o.Ok P1 ∧
    (noMeters Unit Unit).Round (fun r0 _ => r0) :=
  ⟨trivial, ⟨by decide, by intro l h; simp [P1] at h⟩, rfl, by intro d h; simp [P1] at h, o_ok, fun _ _ _ => rfl⟩

example : via P1 [.add (some [1]) a1 [42] 0, .add (some [2]) a2 [255, 4096] 0, .delete 0]
    [.get 1, .apply [2] 0 0, .apply [1] 0 0, .add (some [3]) a1 [1] 0, .apply [3] 0 0] =
    some ([.handle 0, .handle 1, .done],
      [.entry 1 [2] a2 [255, 4096], .ran (some (a2, [255, 4096])) (some 1) 1 none, .ran none none (2 ^ 64 - 1) (some 9),
        .handle 0, .ran (some (a1, [1])) (some 0) 0 (some 7)]) := by decide +kernel

/-- The versions of free slots are not saved: a handle of an entry deleted before the save can come back to life. -/
example : via P1 [.add (some [1]) a1 [42] 0, .delete 0, .get 0] [.get 0, .add (some [3]) a1 [1] 0, .get 0] =
    some ([.handle 0, .done, .err (.table .stale)],
      [.err (.table .stale), .handle 0, .entry 0 [3] a1 [1]]) := by decide +kernel

/-- What is refuted: the property for the tables above, for some of the histories. -/
abbrev Full (P : TableDecl Bytes) (C : List (AOp Bytes) → List (AOp Bytes) → Prop) : Prop :=
  Transparent Unit t1 P 2 (fun _ => ()) o (noMeters Unit Unit) ['t'] C

/-- The outputs of a transparent save and restore. -/
theorem via_of {P : TableDecl Bytes} {C} (h : Full P C) {T0 : Tab t1.str Unit} (e0 : Tab.load t1.str 2 1 (fun _ => ()) P = some T0)
    (ops ops' : List (AOp Bytes)) (hc : C ops ops') (hv : ∀ op ∈ ops ++ ops', op.Valid P t1.spec) :
    ∃ outs outs' s0 s1 s2, via P ops ops' = some (outs, outs') ∧ P.Start s0 ∧ ATrace P t1.spec 2 false s0 ops outs s1 ∧
      ATrace P t1.spec 2 false s1 ops' outs' s2 := by
  obtain ⟨outs, T1, txt, T2, outs', T3, s0, s1, s2, e1, e2, e3, e4, h1, h2, h3⟩ := h T0 e0 ops ops' hc hv
  refine ⟨outs, outs', s0, s1, s2, ?_, h1, h2, h3⟩
  simp only [via, Option.bind_eq_bind, e0, e1, e2, e3, e4, Option.bind_some, Option.pure_def]

theorem load_of (P : TableDecl Bytes) (h : (Tab.load t1.str 2 1 (fun _ => ()) P).isSome = true) :
    ∃ T0, Tab.load t1.str 2 1 (fun _ => ()) P = some T0 := Option.isSome_iff_exists.1 h

/-- After a restore the first entry that is added gets a handle in use, and overwrites that entry: a packet with the
key of the old entry runs the action of the new one. -/
example : via P1 [.add (some [1]) a1 [42] 0] [.apply [1] 0 0, .add (some [2]) a2 [5, 6] 0, .apply [1] 0 0] =
    some ([.handle 0], [.ran (some (a1, [42])) (some 0) 0 (some 7), .handle 0, .ran (some (a2, [5, 6])) (some 0) 0 none]) := by
  decide +kernel

/-- The property fails with slot 0 in use, even without negative data and changes of the default. -/
theorem C67_refuted_add :
    ¬ Full P1 fun ops ops' => (∀ op ∈ ops ++ ops', NonNeg op) ∧ ∀ op ∈ ops ++ ops', ∀ f d, op ≠ .setDefault f d := by
  intro h
  obtain ⟨T0, e0⟩ := load_of P1 (by decide +kernel)
  obtain ⟨outs, outs', s0, s1, s2, e, -, t1, t2⟩ := via_of h e0 [.add (some [1]) a1 [42] 0] [.add (some [2]) a2 [5, 6] 0]
    ⟨by simp [NonNeg, Writes], by simp⟩ (by
    intro op hop
    simp only [List.cons_append, List.nil_append, List.mem_cons, List.not_mem_nil, or_false] at hop
    rcases hop with rfl | rfl
    · exact ⟨by intro k hk; cases hk; rfl, by decide⟩
    · exact ⟨by intro k hk; cases hk; rfl, by decide⟩)
  have e' : via P1 [.add (some [1]) a1 [42] 0] [.add (some [2]) a2 [5, 6] 0] = some ([.handle 0], [.handle 0]) := by
    decide +kernel
  rw [e'] at e
  cases e
  cases t1 with
  | cons st1 tr1 =>
    cases tr1
    cases t2 with
    | cons st2 tr2 =>
      obtain ⟨o1, g1, -, g2⟩ := st1
      obtain ⟨o2, g3, -, g4⟩ := st2
      rcases g1 with ⟨_, rfl, _⟩ | ⟨_, _, rfl, _⟩ | ⟨_, _, h, rfl, _, _, _, q1⟩
      · cases g2
      · cases g2
      rcases g3 with ⟨_, rfl, _⟩ | ⟨_, _, rfl, _⟩ | ⟨_, _, h', rfl, _, q2, _⟩
      · cases g4
      · cases g4
      cases g2
      cases g4
      rw [q1] at q2
      simp at q2

/-- The data of the default action of the program are still there when those of the saved default are added: fails even
if nothing is done before the save. -/
theorem C67_refuted_default_data : ¬ Full P2 fun ops _ => ops = [] := by
  intro h
  obtain ⟨T0, e0⟩ := load_of P2 (by decide +kernel)
  obtain ⟨outs, outs', s0, s1, s2, e, h0, t1, t2⟩ := via_of h e0 [] [.getDefault] rfl (by simp [AOp.Valid])
  have e' : via P2 [] [.getDefault] = some ([], [.default a1 [5, 5]]) := by decide +kernel
  rw [e'] at e
  cases e
  cases t1
  cases t2 with
  | cons st tr =>
    obtain ⟨-, st⟩ := st
    rw [h0.1] at st
    simp [TableDecl.default0, P2] at st

/-- After a restore the default goes to the node of the default of the program, if none should follow it: fails even if no
entry is added and no data are negative. -/
theorem C67_refuted_default_next :
    ¬ Full P1 fun ops ops' => ∀ op ∈ ops ++ ops', NonNeg op ∧ ∀ k f d n, op ≠ .add k f d n := by
  intro h
  obtain ⟨T0, e0⟩ := load_of P1 (by decide +kernel)
  obtain ⟨outs, outs', s0, s1, s2, e, h0, t1, t2⟩ := via_of h e0 [.setDefault a2 [5, 6]] [.apply [1] 0 0]
    (by simp [NonNeg, Writes]) (by
    intro op hop
    simp only [List.cons_append, List.nil_append, List.mem_cons, List.not_mem_nil, or_false] at hop
    rcases hop with rfl | rfl
    · show a2 ∈ _; decide
    · rfl)
  have e' : via P1 [.setDefault a2 [5, 6]] [.apply [1] 0 0] =
      some ([.done], [.ran (some (a2, [5, 6])) none (2 ^ 64 - 1) (some 9)]) := by decide +kernel
  rw [e'] at e
  cases e
  cases t1 with
  | cons st1 tr1 =>
    cases tr1
    cases t2 with
    | cons st tr =>
      obtain ⟨-, ⟨-, st⟩ | ⟨_, _, _, _, _, _, st⟩⟩ := st
      · simp only [AStep, P1] at st1
        simp [a2] at st1
        rw [st1] at st
        simp [TableDecl.goto, TableDecl.after, P1, a1, a2] at st
      · cases st

/-- A table with constant entries cannot be restored: its entries are already there. -/
theorem C67_refuted_const_entries : ¬ Full P3 fun ops ops' => ops = [] ∧ ops' = [] := by
  intro h
  obtain ⟨T0, e0⟩ := load_of P3 (by decide +kernel)
  obtain ⟨outs, outs', s0, s1, s2, e, -⟩ := via_of h e0 [] [] ⟨rfl, rfl⟩ (by simp)
  have e' : via P3 [] [] = none := by decide +kernel
  rw [e'] at e
  cases e

/-- A state with negative data cannot be saved. -/
theorem C67_refuted_negative : ¬ Full P1 fun _ ops' => ops' = [] := by
  intro h
  obtain ⟨T0, e0⟩ := load_of P1 (by decide +kernel)
  obtain ⟨outs, outs', s0, s1, s2, e, -⟩ := via_of h e0 [.add (some [1]) a1 [-1] 0] [] rfl (by
    intro op hop
    simp only [List.append_nil, List.mem_cons, List.not_mem_nil, or_false] at hop
    subst hop
    exact ⟨by intro k hk; cases hk; rfl, by decide⟩)
  have e' : via P1 [.add (some [1]) a1 [-1] 0] [] = none := by decide +kernel
  rw [e'] at e
  cases e

/-! A ternary table with two entries, the first of which was deleted. -/

def PT : TableDecl TernKey :=
  { actions := [(a1, some 7), (a2, none)], hitMiss := none, base := some (some 9), dflt := none, entries := none }

def viaT (ops ops' : List (AOp TernKey)) : Option (Option (List (AOut TernKey))) := do
  let T0 ← Tab.load (TableKind.ternary 1 false).str 2 1 (fun _ => ()) PT
  let (_, T1) ← T0.run ops
  let txt ← saveTab o (noMeters Unit Unit) ['t'] T1
  let (T2, _) ← loadTab o (noMeters Unit Unit) ['t'] 0 T0 txt
  return (T2.run ops').map Prod.fst

/-- Slot 0 free: the packet that hit before the save now misses. -/
example : viaT [.add (some ⟨[1], [255], 1⟩) a1 [42] 0, .add (some ⟨[2], [255], 2⟩) a1 [43] 0, .delete 0] [.apply [2] 0 0] =
    some (some [.ran none none (2 ^ 64 - 1) (some 9)]) := by decide +kernel

/-- Slot 0 in use: the lookup follows a dangling pointer. -/
example : viaT [.add (some ⟨[1], [255], 1⟩) a1 [42] 0] [.apply [1] 0 0] = some none := by decide +kernel

end Ex
end Bm.Save
