import Verif.Model.IndirectApply
import Verif.Lemmas.ProfileRun
import Verif.Props.ActionProfile
import Verif.Props.MatchTable

/-!
# C63: control flow after indirect tables

A system of one action profile and any finite number of indirect tables sharing it, as in C15.
-/

set_option linter.unusedSectionVars false

namespace Bm.MT
open Spec
variable {ι : Type} [DecidableEq ι] [Fintype ι] {kind : ι → TableKind} {R : Type}

/-- What applying table `i` to a packet has to give in state `s`: the action of the member chosen for the best matching
entry, or for the default entry, or the default of the program; and the node the program declares for it. -/
def AppliedOk {K : Type} (P : TableDecl K) (c : PCfg ι (KeyOf kind)) (s : PState ι (KeyOf kind) (ActFn × List Int)) (i : ι)
    (q : Bytes) (nb ts hash : Nat) (r : Applied) : Prop :=
  ∃ o, TStep (c.sp i) (c.size i) (c.keyless i) (s.tab i) (.lookup q nb ts) (s.tab i) o ∧
    ((o = .miss ∧ s.dflt i = none ∧ r = ⟨2 ^ 64 - 1, none, P.default0, P.goto false P.default0⟩) ∨
     (∃ ref a, o = .miss ∧ s.dflt i = some ref ∧ s.Chosen hash ref (.act a) ∧
        r = ⟨2 ^ 64 - 1, none, some a, P.goto false (some a)⟩) ∨
     (∃ h ref a, o = .hit h ref ∧ s.Chosen hash ref (.act a) ∧
        r = ⟨slotOf h, some h, some a, P.goto true (some a)⟩))

/-- The table `i` refers to the group `g`. -/
def RefersTo (s : PState ι (KeyOf kind) (ActFn × List Int)) (i : ι) (g : Nat) : Prop :=
  (∃ h k, s.tab i h = some (k, .grp g)) ∨ s.dflt i = some (.grp g)

/-- **C63 (partial).**  The full property is: after every history, applying an indirect table to a packet is defined,
runs the action of the chosen member and goes to the node declared for it (for an empty group: runs nothing, and goes
to a node declared for the table).  Proved: after every history within the limits of C15 and in which the table refers
to no empty group and all members have actions of the table, applying the table is defined, and the action and the
node are the right ones.  Without these two conditions it fails, see `IEx.C63_refuted` and `IEx.C63_foreign`. -/
theorem C63_indirect_next_partial (hn : Fintype.card ι ≤ 254) (size sizeKey : ι → Nat) (hs : ∀ i, size i ≤ 2 ^ 24)
    (meters : Nat → R) (const : ι → Bool) (ops : List (POp ι (KeyOf kind) (ActFn × List Int)))
    (hc : CleanRun (ISys.fresh kind R (ActFn × List Int) size sizeKey meters const) ops)
    (i : ι) (P : TableDecl (kind i).K) (hw : P.WF (kind i).spec) (c : Cfg)
    (hP : Cfg.loadIndirect P (Tab.init (kind i).str (size i) (sizeKey i) meters) = some c) :
    ∃ outs st' s', (ISys.fresh kind R (ActFn × List Int) size sizeKey meters const).run ops = some (outs, st') ∧
      PTrace (ISys.fresh kind R (ActFn × List Int) size sizeKey meters const).cfg PState.empty ops outs s' ∧
      ((∀ g, RefersTo s' i g → s'.grp g ≠ some ∅) →
       (∀ m a, s'.mem m = some a → a.1 ∈ P.actions.map Prod.fst) →
       ∀ q nb ts hash, (kind i).spec.okQ q → ∃ r st'', iApply st' i c q nb ts hash = some (r, st'') ∧
        AppliedOk P (ISys.fresh kind R (ActFn × List Int) size sizeKey meters const).cfg s' i q nb ts hash r) := by
  obtain ⟨outs, st', s', Sm, Sg, e, h, tr, hcfg⟩ := PRep.run hn ops (PRep.fresh size sizeKey hs meters const) hc
  refine ⟨outs, st', s', e, tr, ?_⟩
  intro hne hmem q nb ts hash hq
  -- the settings
  obtain ⟨hp, -⟩ := preCfg (kind i).str P hw.ids (size i) (sizeKey i) meters
  obtain ⟨t1, e1, rfl⟩ := Option.map_eq_some_iff.1 hP
  obtain ⟨c1, -, -⟩ := loadDefault_ok hp e1
  -- the lookup
  have hidx : ∀ hd : Nat, hd &&& 0x00ffffff = slotOf hd := fun hd => by
    rw [show (0x00ffffff : Nat) = 2 ^ 24 - 1 from rfl, Nat.and_two_pow_sub_one_eq_mod]; rfl
  obtain ⟨out, st'', e2, hg⟩ := h.tLookup i q nb ts hash hq
  obtain ⟨s2, _, _, _, ⟨rfl, o, hst, ho⟩, -⟩ := hg
  have hact : ∀ ref a, s2.Chosen hash ref (.act a) → a.1 ∈ P.actions.map Prod.fst := by
    intro ref a hch
    cases ref with
    | mbr m =>
      obtain ⟨a', hm, heq⟩ := hch
      simp only [Look.act.injEq] at heq
      subst heq
      exact hmem m a hm
    | grp g =>
      obtain ⟨G, _, ⟨_, heq⟩ | ⟨m, _, _, a', hm, heq⟩⟩ := hch
      · simp at heq
      · simp only [Look.act.injEq] at heq
        subst heq
        exact hmem m a hm
  have hlook : ∀ ref res, (∀ g, ref = .grp g → RefersTo s2 i g) → s2.Chosen hash ref res → ∃ a, res = .act a := by
    intro ref res href hch
    cases ref with
    | mbr m => obtain ⟨a, _, rfl⟩ := hch; exact ⟨a, rfl⟩
    | grp g =>
      obtain ⟨G, hG, ⟨rfl, _⟩ | ⟨m, _, _, a, _, rfl⟩⟩ := hch
      · exact absurd hG (hne g (href g rfl))
      · exact ⟨a, rfl⟩
  have e2' : st'.tLookup i q nb ts hash = some (out, st'') := e2
  rcases ho with ⟨rfl, hd, rfl⟩ | ⟨ref, res, rfl, hd, hch, rfl⟩ | ⟨hd, ref, res, rfl, hch, rfl⟩
  · refine ⟨_, st'', ?_, _, by rw [← hcfg]; exact hst, .inl ⟨rfl, hd, rfl⟩⟩
    obtain ⟨d1, d2⟩ := c1.dflt
    simp [iApply, e2', Cfg.chosen, d1, d2, invalidIndex]
  · obtain ⟨a, rfl⟩ := hlook ref res (fun g hg => .inr (hg ▸ hd)) hch
    refine ⟨_, st'', ?_, _, by rw [← hcfg]; exact hst, .inr (.inl ⟨ref, a, rfl, hd, hch, rfl⟩)⟩
    have := c1.miss a.1 (hact _ _ hch) a.2
    simp [iApply, e2', Cfg.chosen, this, invalidIndex]
  · have href : ∀ g, ref = .grp g → RefersTo s2 i g := by
      rintro g rfl
      obtain ⟨-, ⟨hm, -⟩ | ⟨h', k, v, heq, ht, -⟩⟩ := hst
      · simp at hm
      · simp only [TOut.hit.injEq] at heq
        obtain ⟨rfl, rfl⟩ := heq
        exact .inl ⟨hd, k, ht⟩
    obtain ⟨a, rfl⟩ := hlook ref res href hch
    refine ⟨_, st'', ?_, _, by rw [← hcfg]; exact hst, .inr (.inr ⟨hd, ref, a, rfl, hch, rfl⟩)⟩
    have := c1.hit a.1 (hact _ _ hch) a.2
    simp [iApply, e2', Cfg.chosen, this, hidx hd]

/-! ## Concrete cases -/

namespace IEx

/-- One exact-match table with one-byte keys and the actions `Ex.a1` (then node 7) and `Ex.a2` (then the end). -/
def sys : ISys Unit (fun _ => .exact 1) Unit (ActFn × List Int) :=
  ISys.fresh _ _ _ (fun _ => 4) (fun _ => 1) (fun _ => ()) (fun _ => false)

def P : TableDecl Bytes := Ex.P1

/-- Another table with only the first action. -/
def P' : TableDecl Bytes := { Ex.P1 with actions := [(Ex.a1, some 7)] }

/-- Apply the table declared by `P` after a history. -/
def after (P : TableDecl Bytes) (ops : List (POp Unit (KeyOf fun _ => TableKind.exact 1) (ActFn × List Int)))
    (q : Bytes) (hash : Nat) : Option (Option Applied) := do
  let c ← Cfg.loadIndirect (L := (TableKind.exact 1).str) (R := Unit) P (Tab.init _ 4 1 (fun _ => ()))
  let (_, s) ← sys.run ops
  return (iApply s () c q 64 0 hash).map Prod.fst

/-- A group of two members, used by an entry. -/
def ops : List (POp Unit (KeyOf fun _ => TableKind.exact 1) (ActFn × List Int)) :=
  [.addMember (some (Ex.a1, [5])), .addMember (some (Ex.a2, [6, 7])), .newGroup, .join 0 0, .join 1 0,
   .tAdd () (some [1]) (.grp 0) 0]

/-- The hypotheses of `C63_indirect_next_partial`. -/
example : CleanRun sys ops := cleanB_sound _ _ (by decide +kernel)
example : P.WF (TableKind.exact 1).spec := Ex.P1_sound.toWF

example : after P ops [1] 0 = some (some ⟨0, some 0, some (Ex.a1, [5]), some 7⟩) := by decide +kernel
example : after P ops [1] 1 = some (some ⟨0, some 0, some (Ex.a2, [6, 7]), none⟩) := by decide +kernel
example : after P ops [2] 1 = some (some ⟨2 ^ 64 - 1, none, none, some 9⟩) := by decide +kernel

/-- **C63 is refuted for empty groups**: the group is emptied while the entry refers to it (no call is refused); a
packet hitting the entry then leads to an uninitialised next node. -/
theorem C63_refuted : after P (ops ++ [.leave 0 0, .leave 1 0]) [1] 0 = some none := by decide +kernel

/-- The same with an empty group as default. -/
theorem C63_refuted_default : after P [.newGroup, .setDflt () (.grp 0)] [1] 0 = some none := by decide +kernel

/-- **C63 is refuted for members with an action that is not one of the table** (the profile is shared with a table
that has it): an exception is thrown while a packet is processed. -/
theorem C63_foreign : after P' ops [1] 1 = some none := by decide +kernel

end IEx
end Bm.MT
