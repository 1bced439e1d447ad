import Verif.Lemmas.MatchTable

/-!
# C61, C62: tables with actions

For every kind of table, every declaration and every history of calls and packets.
-/

namespace Bm.MT
open Spec
variable {R : Type}

/-- **C61.**  A table loaded from a declaration behaves, for every history of calls and packets, as specified by
`AStep`: no call is undefined; a packet that matches runs the action last written to the best matching entry, with its
data, and goes to the node for hits if there is one, and otherwise to the node of that action; a packet that matches
nothing runs the current default action (or nothing, if there is none) and goes to the node for misses, to that of the
action, or to the base node.  Calls with the wrong amount of data, or to a table with constant entries or a constant
default, are refused without any effect. -/
theorem C61_table_runs_configured_action (k : TableKind) (P : TableDecl k.K) (hw : P.WF k.spec) (size sizeKey : Nat)
    (hs : size ≤ 2 ^ 24) (meters : Nat → R) (t : Tab k.str R) (e : Tab.load k.str size sizeKey meters P = some t)
    (ops : List (AOp k.K)) (hv : ∀ op ∈ ops, op.Valid P k.spec) :
    ∃ outs t' s s', t.run ops = some (outs, t') ∧ P.Start s ∧
      ATrace P k.spec size (decide (sizeKey = 0)) s ops outs s' := by
  obtain ⟨s, E, h, h0, z1, z2⟩ := load_ok k.laws P hw hs meters e
  obtain ⟨outs, t', s', E', e', -, tr⟩ := h.run ops hv
  rw [z1, z2] at tr
  exact ⟨outs, t', s, s', e', h0, tr⟩

/-- **C61.**  Sound declarations are accepted by the loader. -/
theorem C61_loads (k : TableKind) (P : TableDecl k.K) (size sizeKey : Nat) (hs : size ≤ 2 ^ 24)
    (hw : P.Sound k.spec size (decide (sizeKey = 0))) (meters : Nat → R) :
    ∃ t : Tab k.str R, Tab.load k.str size sizeKey meters P = some t :=
  load_some k.laws P hs hw meters

/-- **C62 (partial).**  The full property is: the entries of a table declared with constant entries never change, a
constant default entry never changes, and a constant default action is never replaced by another action (its data
may be changed).  Proved for histories without `clear`; the default is constant even with `clear`.  With `clear`, the
statement about the entries is false, see `Ex.C62_refuted`. -/
theorem C62_constants_kept_partial (k : TableKind) (P : TableDecl k.K) (hw : P.WF k.spec) (size sizeKey : Nat)
    (hs : size ≤ 2 ^ 24) (meters : Nat → R) (t : Tab k.str R) (e : Tab.load k.str size sizeKey meters P = some t)
    (ops : List (AOp k.K)) (hv : ∀ op ∈ ops, op.Valid P k.spec) :
    ∃ outs t' s s', t.run ops = some (outs, t') ∧ P.Start s ∧
      ATrace P k.spec size (decide (sizeKey = 0)) s ops outs s' ∧
      (P.entries.isSome = true → (∀ op ∈ ops, ∀ d, op ≠ .clear d) → s'.T = s.T) ∧
      (∀ d, P.dflt = some d → d.constEntry = true → s'.D = some (d.fn, d.data)) ∧
      (∀ d, P.dflt = some d → d.constAction = true →
        ∃ data, s'.D = some (d.fn, data) ∧ data.length = d.fn.nparams) := by
  obtain ⟨outs, t', s, s', e', h0, tr⟩ := C61_table_runs_configured_action k P hw size sizeKey hs meters t e ops hv
  have hD : ∀ d, P.dflt = some d → DefaultKept d s'.D := by
    intro d hd
    have hl : d.data.length = d.fn.nparams := by
      by_contra hne
      simp only [Tab.load, hd, Tab.loadDefault, Option.bind_eq_bind] at e
      obtain ⟨t1, e1, -⟩ := Option.bind_eq_some_iff.1 e
      obtain ⟨t2, -, e2⟩ := Option.bind_eq_some_iff.1 e1
      simp [Tab.setDefaultDefault, hne] at e2
    refine trace_default d hd hl tr ?_
    rw [h0.1]
    have : P.default0 = some (d.fn, d.data) := by simp [TableDecl.default0, hd]
    rw [this]
    exact ⟨fun _ => rfl, fun _ => ⟨_, rfl, hl⟩⟩
  refine ⟨outs, t', s, s', e', h0, tr, ?_, fun d hd => (hD d hd).1, fun d hd => (hD d hd).2⟩
  intro hs hc
  obtain ⟨l, hl⟩ := Option.isSome_iff_exists.1 hs
  exact trace_entries l hl tr hc

/-! ## Concrete cases -/

namespace Ex

/-- Two actions with one and two parameters. -/
def a1 : ActFn := ⟨1, 1⟩
def a2 : ActFn := ⟨2, 2⟩

/-- A table without constants; after action 1 the pipeline goes to node 7, after action 2 it ends. -/
def P1 : TableDecl Bytes :=
  { actions := [(a1, some 7), (a2, none)], hitMiss := none, base := some (some 9), dflt := none, entries := none }

/-- A table with nodes for hit and miss, a default entry with a constant action, and one constant entry. -/
def P2 : TableDecl Bytes :=
  { actions := [(a1, none), (a2, none)], hitMiss := some (some 3, some 4), base := none
    dflt := some ⟨a2, [5, 6], true, false⟩, entries := some [([1], a1, [42])] }

/-- The run of a table of two one-byte entries. -/
def go (P : TableDecl Bytes) (ops : List (AOp Bytes)) : Option (List (AOut Bytes)) :=
  ((Tab.load (TableKind.exact 1).str 2 1 (fun _ => ()) P).bind fun t => t.run ops).map Prod.fst

theorem P1_sound : P1.Sound (TableKind.exact 1).spec 2 false where
  ids := by decide
  entries := by intro l h; simp [P1] at h
  dflt := by intro d h; simp [P1] at h
  key := by decide
  data := by intro e h; simp [P1] at h
  fits := by decide
  distinct := List.Pairwise.nil

theorem P2_sound : P2.Sound (TableKind.exact 1).spec 2 false where
  ids := by decide
  entries := by
    intro l h e he
    simp only [P2, Option.some.injEq] at h
    subst h
    simp only [List.mem_singleton] at he
    subst he
    exact ⟨rfl, by decide⟩
  dflt := by
    intro d h
    simp only [P2, Option.some.injEq] at h
    subst h
    exact ⟨by decide, rfl⟩
  key := by intro; rfl
  data := by
    intro e he
    simp only [P2, Option.getD_some, List.mem_singleton] at he
    subst he
    rfl
  fits := by decide
  distinct := List.pairwise_singleton _ _

-- without default: the base node; entries run the action last written; the default can be set and reset
example : go P1 [.apply [1] 64 0, .add (some [1]) a1 [42] 0, .apply [1] 64 0, .modify 0 a2 [8, 9], .apply [1] 64 0,
      .add (some [2]) a1 [1, 2] 0, .setDefault a1 [0], .apply [2] 64 0, .getDefault, .resetDefault, .getDefault,
      .entries, .count, .getByKey (some [1]), .delete 0, .get 0, .count] =
    some [.ran none none (2 ^ 64 - 1) (some 9), .handle 0, .ran (some (a1, [42])) (some 0) 0 (some 7), .done,
      .ran (some (a2, [8, 9])) (some 0) 0 none, .err .badData, .done,
      .ran (some (a1, [0])) none (2 ^ 64 - 1) (some 7), .default a1 [0], .done, .err .noDefault,
      .entries [(0, [1], a2, [8, 9])], .num 1, .entry 0 [1] a2 [8, 9], .done, .err (.table .stale), .num 0] := by
  decide +kernel

-- nodes for hit and miss; constants
example : go P2 [.apply [1] 64 0, .apply [2] 64 0, .delete 0, .modify 0 a1 [3], .add (some [2]) a1 [3] 0,
      .setDefault a1 [3], .setDefault a2 [3, 4], .apply [2] 64 0, .resetDefault, .apply [2] 64 0] =
    some [.ran (some (a1, [42])) (some 0) 0 (some 3), .ran (some (a2, [5, 6])) none (2 ^ 64 - 1) (some 4),
      .err .constEntries, .err .constEntries, .err .constEntries, .err .constAction, .done,
      .ran (some (a2, [3, 4])) none (2 ^ 64 - 1) (some 4), .done,
      .ran (some (a2, [5, 6])) none (2 ^ 64 - 1) (some 4)] := by
  decide +kernel

/-- **C62 is refuted for the entries**: `mt_clear_entries` removes constant entries, and they cannot be added again. -/
theorem C62_refuted :
    go P2 [.apply [1] 64 0, .clear false, .apply [1] 64 0, .entries, .add (some [1]) a1 [42] 0] =
      some [.ran (some (a1, [42])) (some 0) 0 (some 3), .done, .ran (some (a2, [5, 6])) none (2 ^ 64 - 1) (some 4),
        .entries [], .err .constEntries] := by
  decide +kernel

end Ex
end Bm.MT
