import Verif.Lemmas.MatchUnit

/-! Executing histories of calls on a match unit; simulation of the table specification. -/

namespace Bm
open Spec

namespace TableKind

/-- What this kind of table should do. -/
@[reducible] def spec : (t : TableKind) → MatchSpec t.K
  | exact n => exactSpec n
  | lpm n => lpmSpec n LpmKey.data LpmKey.prefixLength
  | ternary n _ => ternSpec n TernKey.data TernKey.mask TernKey.priority
  | range n _ => rangeSpec n RangeKey.data RangeKey.mask RangeKey.rangeWidths RangeKey.priority

def laws : (t : TableKind) → Laws t.str t.spec
  | exact n => exactLaws n
  | lpm n => lpmLaws n
  | ternary n c => ternLaws n c
  | range n c => rangeLaws n c

end TableKind

/-- Translation of the error codes. -/
def MCode.out {K V : Type} : MCode → TOut K V
  | .success => .done
  | .tableFull => .err .full
  | .invalidHandle => .err .stale
  | .expiredHandle => .err .stale
  | .duplicateEntry => .err .duplicate
  | .badMatchKey => .err .badKey
  | .noTableKey => .err .noKey
  | .error => .err .badKey

namespace MUnit
variable {K V R : Type} {L : LookupStr K}

/-- Execute one call of the specification's interface. -/
def exec (mu : MUnit L V R) : TOp K V → Option (TOut K V × MUnit L V R)
  | .add k v now => (mu.addEntry k v now).map fun ((c, h), mu') =>
      (if c = .success then .handle h else c.out, mu')
  | .delete h => (mu.deleteEntry h).map fun (c, mu') => (c.out, mu')
  | .modify h v => (mu.modifyEntry h v).map fun (c, mu') => (c.out, mu')
  | .get h => (mu.getEntry h).map fun (c, r) =>
      (match r with | some (k, v) => .entry k v | none => c.out, mu)
  | .retrieve k => (mu.retrieveHandle k).map fun (c, h) =>
      (if c = .success then .handle h else c.out, mu)
  | .lookup q nb ts => (mu.lookup q nb ts).map fun (r, mu') =>
      (match r with | .miss => .miss | .hit h v => .hit h v, mu')
  | .handles => mu.handleList.map fun l => (.handles l, mu)
  | .count => some (.num mu.numEntries, mu)
  | .reset => some (.done, mu.resetState)
  | .setTtl h ttl now => (mu.setEntryTtl h ttl now).map fun (c, mu') => (c.out, mu')
  | .writeCounters h b p => (mu.writeCounters h b p).map fun (c, mu') => (c.out, mu')

/-- Execute a history. -/
def run : MUnit L V R → List (TOp K V) → Option (List (TOut K V) × MUnit L V R)
  | mu, [] => some ([], mu)
  | mu, op :: ops => do
    let (o, mu1) ← mu.exec op
    let (os, mu2) ← run mu1 ops
    return (o :: os, mu2)

/-- Version of a slot, counting a live entry as one more. -/
def phase (mu : MUnit L V R) (E : Nat → Option (K × V)) (i : Nat) : Nat :=
  (mu.entries i).version + if (E i).isSome = true then 1 else 0

end MUnit

/-- Does this call with this result allocate slot `i`? -/
def allocs {K V : Type} (i : Nat) : TOp K V → TOut K V → Nat
  | .add _ _ _, .handle h => if slotOf h = i then 1 else 0
  | _, _ => 0

theorem reuses_cons {K V : Type} (i : Nat) (op : TOp K V) (out : TOut K V) (ops outs) :
    reuses i (op :: ops) (out :: outs) = allocs i op out + reuses i ops outs := by
  cases op <;> cases out <;> simp [reuses, allocs]

namespace MRep
variable {K V R : Type} {L : LookupStr K} {sp : MatchSpec K} {W : Laws L sp} {mu : MUnit L V R}
  {E : Nat → Option (K × V)}

/-- What one call does. -/
structure Step (W : Laws L sp) (mu : MUnit L V R) (E : Nat → Option (K × V)) (op : TOp K V)
    (out : TOut K V) (mu' : MUnit L V R) (E' : Nat → Option (K × V)) : Prop where
  rep : MRep W mu' E'
  spec : TStep sp mu.size (decide (mu.sizeKey = 0)) (mu.tab E) op (mu'.tab E') out
  size : mu'.size = mu.size
  sizeKey : mu'.sizeKey = mu.sizeKey
  phase : (op ≠ .reset) → ∀ i, mu'.phase E' i % 256 = (mu.phase E i + allocs i op out) % 256
  reject : ∀ e, out = .err e → mu' = mu
  ttl : (∀ h ttl now, op ≠ .setTtl h ttl now) → ∀ i, (mu.metas i).timeoutMs = 0 →
    (mu'.metas i).timeoutMs = 0
  dead : ∀ i, E i = none → allocs i op out = 0 → E' i = none

theorem tab_congr {mu' : MUnit L V R} (h : mu'.entries = mu.entries) :
    mu'.tab E = mu.tab E := by
  funext hd; simp [MUnit.tab, h]

theorem Step.same (h : MRep W mu E) (op : TOp K V) (out : TOut K V)
    (hs : TStep sp mu.size (decide (mu.sizeKey = 0)) (mu.tab E) op (mu.tab E) out)
    (ha : ∀ i, allocs i op out = 0) : Step W mu E op out mu E :=
  ⟨h, hs, rfl, rfl, fun _ i => by rw [ha i]; rfl, fun _ _ => rfl, fun _ _ h => h,
    fun _ h _ => h⟩

theorem allocs_err (i : Nat) (op : TOp K V) (e : TErr) : allocs i op (.err e) = 0 := by
  cases op <;> rfl

/-- One call of the interface. -/
theorem exec (h : MRep W mu E) (op : TOp K V) (hv : op.Valid sp) :
    ∃ out mu' E', mu.exec op = some (out, mu') ∧ Step W mu E op out mu' E' := by
  cases op with
  | add key v now =>
    by_cases hkey : mu.sizeKey = 0
    · refine ⟨.err .noKey, mu, E, ?_, Step.same h _ _ ?_ (fun i => allocs_err i _ _)⟩
      · simp [MUnit.exec, MUnit.addEntry, hkey, MCode.out]
      · simp [TStep, hkey]
    cases key with
    | none =>
      refine ⟨.err .badKey, mu, E, ?_, Step.same h _ _ ?_ (fun i => allocs_err i _ _)⟩
      · simp [MUnit.exec, MUnit.addEntry, hkey, MCode.out]
      · simp [TStep, hkey]
    | some k =>
      by_cases hs : HasSame sp (mu.tab E) k
      · refine ⟨.err .duplicate, mu, E, ?_, Step.same h _ _ ?_ (fun i => allocs_err i _ _)⟩
        · simp [MUnit.exec, h.add_dup k v now hv hkey hs, MCode.out]
        · simp [TStep, hkey, hs]
      by_cases hc : mu.numEntries < mu.size
      · obtain ⟨hi, hEi, hle, hm, ls, he, hr⟩ := h.add_slot k v now hv hkey hs hc
        have hi24 := lt_of_lt_of_le hi h.size
        refine ⟨_, _, _, by rw [MUnit.exec, he]; simp only [Option.map_some, if_true]; rfl,
          hr, ?_, rfl, rfl, ?_, ?_, ?_, ?_⟩
        · simp only [TStep, hkey, decide_false]
          right; right
          obtain ⟨l, hl, hlen⟩ := h.live_count
          refine ⟨hs, ⟨l, hl, by omega⟩, _, rfl, handleSet_lt _ _, ?_, ?_, ?_⟩
          · rw [h.tab_set hi24, hEi]
          · intro h' hs' heq
            rw [slotOf_eq, slotOf_eq, handleInternal_set _ _ hi24] at heq
            obtain ⟨kv, hkv⟩ := Option.isSome_iff_exists.1 hs'
            have := (h.tab_some hkv).1
            rw [heq, hEi] at this
            simp at this
          · funext h'
            simp only [MUnit.tab]
            by_cases hh : handleInternal h' = mu.handles.firstUnset
            · rw [hh]
              simp only [setAt_self, hEi, ite_self]
              by_cases hvv : handleVersion h' = (mu.entries mu.handles.firstUnset).version
              · rw [if_pos hvv, if_pos]
                rw [← hvv, ← hh, handleSet_self]
                rw [hvv]; exact h.ver _
              · rw [if_neg hvv, if_neg]
                rintro rfl
                rw [handleVersion_set _ _ hi24, Nat.mod_eq_of_lt (h.ver _)] at hvv
                exact hvv rfl
            · simp only [setAt_of_ne _ _ hh]
              have hne : h' ≠ handleSet (mu.entries mu.handles.firstUnset).version
                  mu.handles.firstUnset := by
                rintro rfl
                rw [handleInternal_set _ _ hi24] at hh
                exact hh rfl
              rw [if_neg hne]
        · intro _ i
          simp only [MUnit.phase, allocs, slotOf_eq, handleInternal_set _ _ hi24]
          by_cases hh : i = mu.handles.firstUnset
          · subst hh
            simp [setAt_self, hEi]
          · simp [setAt_of_ne _ _ hh, Ne.symm hh]
        · intro e he; simp at he
        · intro _ i hz
          by_cases hh : i = mu.handles.firstUnset
          · subst hh
            simp only [setAt_self]; exact hz
          · simp only [setAt_of_ne _ _ hh]; exact hz
        · intro i hn ha
          simp only [allocs, slotOf_eq, handleInternal_set _ _ hi24] at ha
          have hh : i ≠ mu.handles.firstUnset := by
            rintro rfl; simp at ha
          rw [setAt_of_ne _ _ hh]; exact hn
      · refine ⟨.err .full, mu, E, ?_, Step.same h _ _ ?_ (fun i => allocs_err i _ _)⟩
        · simp [MUnit.exec, h.add_full k v now hv hkey hs hc, MCode.out]
        · simp only [TStep, hkey, decide_false]
          right; left
          obtain ⟨l, hl, hlen⟩ := h.live_count
          have := h.count_le
          exact ⟨hs, ⟨l, hl, by omega⟩, by trivial, by trivial⟩
  | delete hd =>
    cases ht : mu.tab E hd with
    | none =>
      obtain ⟨c, e, hc⟩ := h.delete_stale hd ht
      refine ⟨.err .stale, mu, E, ?_, Step.same h _ _ ?_ (fun i => allocs_err i _ _)⟩
      · rcases hc with rfl | rfl <;> simp [MUnit.exec, e, MCode.out]
      · simp [TStep, ht]
    | some kv =>
      obtain ⟨hm, ls, e, hr⟩ := h.delete_live hd ht
      refine ⟨.done, _, _, by rw [MUnit.exec, e]; rfl, hr, ?_, rfl, rfl, ?_, by simp,
        fun _ _ hz => hz, fun i hn _ => by simp only [setAt]; split <;> simp [hn]⟩
      · simp only [TStep]
        left
        refine ⟨by simp [ht], trivial, ?_⟩
        funext h'
        simp only [MUnit.tab]
        obtain ⟨hE, heq⟩ := h.tab_some ht
        by_cases hh : handleInternal h' = handleInternal hd
        · rw [hh]
          simp only [setAt_self, ite_self]
          by_cases h2 : h' = hd
          · simp [h2]
          · rw [if_neg h2, if_neg]
            intro hvv
            apply h2
            refine handle_ext hh ?_
            rw [hvv, heq, handleInternal_set _ _ (h.lt24 hE), handleVersion_set _ _ (h.lt24 hE),
              Nat.mod_eq_of_lt (h.ver _)]
        · simp only [setAt_of_ne _ _ hh]
          have hne : h' ≠ hd := by
            rintro rfl
            exact hh rfl
          rw [if_neg hne]
      · intro _ i
        simp only [MUnit.phase, allocs]
        by_cases hh : i = handleInternal hd
        · subst hh
          obtain ⟨hE, -⟩ := h.tab_some ht
          simp [setAt_self, hE]
        · simp [setAt_of_ne _ _ hh]
  | modify hd v =>
    cases ht : mu.tab E hd with
    | none =>
      obtain ⟨c, e, hc⟩ := h.modify_stale hd v ht
      refine ⟨.err .stale, mu, E, ?_, Step.same h _ _ ?_ (fun i => allocs_err i _ _)⟩
      · rcases hc with rfl | rfl <;> simp [MUnit.exec, e, MCode.out]
      · simp [TStep, ht]
    | some kv =>
      obtain ⟨k, v'⟩ := kv
      obtain ⟨e, hr⟩ := h.modify_live hd v ht
      obtain ⟨hE, heq⟩ := h.tab_some ht
      refine ⟨.done, _, _, by rw [MUnit.exec, e]; rfl, hr, ?_, rfl, rfl, ?_, by simp,
        fun _ _ hz => hz, fun i hn _ => by
          simp only [setAt]; split
          · subst_vars; rw [hE] at hn; simp at hn
          · exact hn⟩
      · simp only [TStep]
        left
        refine ⟨k, v', ht, trivial, ?_⟩
        funext h'
        simp only [MUnit.tab]
        by_cases hh : handleInternal h' = handleInternal hd
        · rw [hh]
          simp only [setAt_self]
          by_cases h2 : h' = hd
          · subst h2
            rw [if_pos rfl, if_pos]
            rw [heq, handleInternal_set _ _ (h.lt24 hE), handleVersion_set _ _ (h.lt24 hE),
              Nat.mod_eq_of_lt (h.ver _)]
          · have hne : ¬ handleVersion h' = (mu.entries (handleInternal hd)).version := by
              intro hvv
              apply h2
              refine handle_ext hh ?_
              rw [hvv, heq, handleInternal_set _ _ (h.lt24 hE), handleVersion_set _ _ (h.lt24 hE),
                Nat.mod_eq_of_lt (h.ver _)]
            rw [if_neg h2, if_neg hne, if_neg hne]
        · simp only [setAt_of_ne _ _ hh]
          have hne : h' ≠ hd := by
            rintro rfl
            exact hh rfl
          rw [if_neg hne]
      · intro _ i
        simp only [MUnit.phase, allocs]
        by_cases hh : i = handleInternal hd
        · subst hh
          simp [setAt_self, hE]
        · simp [setAt_of_ne _ _ hh]
  | get hd =>
    cases ht : mu.tab E hd with
    | none =>
      obtain ⟨c, e, hc⟩ := h.get_stale hd ht
      refine ⟨.err .stale, mu, E, ?_, Step.same h _ _ ?_ (fun i => allocs_err i _ _)⟩
      · rcases hc with rfl | rfl <;> simp [MUnit.exec, e, MCode.out]
      · simp [TStep, ht]
    | some kv =>
      refine ⟨.entry kv.1 kv.2, mu, E, ?_, Step.same h _ _ ?_ (fun i => rfl)⟩
      · simp [MUnit.exec, h.get_live hd ht]
      · simp [TStep, ht]
  | retrieve key =>
    cases key with
    | none =>
      refine ⟨.err .badKey, mu, E, ?_, Step.same h _ _ ?_ (fun i => allocs_err i _ _)⟩
      · simp [MUnit.exec, MUnit.retrieveHandle, MCode.out]
      · simp [TStep]
    | some k =>
      rcases h.retrieve k hv with ⟨hd, k', v', ht, hs, e⟩ | ⟨hs, e⟩
      · refine ⟨.handle hd, mu, E, by simp [MUnit.exec, e], Step.same h _ _ ?_ (fun i => rfl)⟩
        exact ⟨rfl, .inl ⟨hd, k', v', ht, hs, rfl⟩⟩
      · refine ⟨.err .badKey, mu, E, by simp [MUnit.exec, e, MCode.out],
          Step.same h _ _ ⟨rfl, .inr ⟨hs, rfl⟩⟩ (fun i => allocs_err i _ _)⟩
  | lookup q nb ts =>
    obtain ⟨ls, hl, h1 | ⟨i, k, v, hE, hm, hb, e⟩⟩ := h.lookup q nb ts hv
    · refine ⟨.miss, _, E, by rw [MUnit.exec, h1.1]; rfl, ?_⟩
      refine ⟨h.of_eq _ rfl rfl rfl rfl hl (fun _ => rfl), ?_, rfl, rfl, fun _ _ => rfl, by simp,
        fun _ _ hz => hz, fun _ hn _ => hn⟩
      refine ⟨rfl, .inl ⟨rfl, ?_⟩⟩
      intro hd k v ht
      exact h1.2 _ k v (h.tab_some ht).1
    · refine ⟨_, _, E, by rw [MUnit.exec, e]; rfl, ?_⟩
      refine ⟨h.of_eq _ rfl rfl rfl rfl hl ?_, ?_, rfl, rfl,
        fun _ _ => rfl, by simp, ?_, fun _ hn _ => hn⟩
      · intro j
        by_cases hj : j = i
        · subst hj; simp [setAt_self]
        · simp [setAt_of_ne _ _ hj]
      · refine ⟨rfl, .inr ⟨_, k, v, rfl, ?_, hm, ?_⟩⟩
        · rw [h.tab_set (h.lt24 hE), hE]
        · intro h' k' v' ht' hm'
          rw [slotOf_eq, slotOf_eq, handleInternal_set _ _ (h.lt24 hE)]
          exact hb _ k' v' (h.tab_some ht').1 hm'
      · intro _ j hz
        by_cases hj : j = i
        · subst hj; simpa [setAt_self] using hz
        · simpa [setAt_of_ne _ _ hj] using hz
  | handles =>
    obtain ⟨l, e, hl⟩ := h.handleList
    exact ⟨.handles l, mu, E, by simp [MUnit.exec, e], Step.same h _ _ ⟨rfl, l, hl, rfl⟩
      (fun i => rfl)⟩
  | count =>
    obtain ⟨l, hl, hlen⟩ := h.live_count
    refine ⟨.num mu.numEntries, mu, E, rfl, Step.same h _ _
      ⟨rfl, l, hl, by rw [hlen]; exact h.count_le, by rw [hlen]⟩ (fun i => rfl)⟩
  | reset =>
    refine ⟨.done, mu.resetState, fun _ => none, rfl, h.resetState, ⟨?_, rfl⟩, rfl, rfl,
      by simp, by simp, fun _ _ _ => rfl, fun _ _ _ => rfl⟩
    funext hd
    simp [MUnit.tab]
  | setTtl hd ttl now =>
    have hval := h.validHandle hd
    rw [MUnit.validHandle] at hval
    cases hE : E (handleInternal hd) with
    | none =>
      rw [hE] at hval
      refine ⟨.err .stale, mu, E, ?_, Step.same h _ _ ⟨rfl, .inr rfl⟩
        (fun i => allocs_err i _ _)⟩
      simp [MUnit.exec, MUnit.setEntryTtl, hval, MCode.out]
    | some kv =>
      rw [hE] at hval
      refine ⟨.done, _, E, by
          simp only [MUnit.exec, MUnit.setEntryTtl, hval, Option.bind_eq_bind, Option.bind_some,
            Option.isSome_some, Bool.not_true, Bool.false_eq_true, if_false, if_pos (h.lt hE)]
          rfl, ?_⟩
      refine ⟨h.of_eq _ rfl rfl rfl rfl h.ls ?_, ⟨rfl, .inl rfl⟩, rfl, rfl, fun _ _ => rfl,
          by simp, by simp, fun _ hn _ => hn⟩
      intro j
      by_cases hj : j = handleInternal hd
      · subst hj; simp [setAt_self]
      · simp [setAt_of_ne _ _ hj]
  | writeCounters hd b p =>
    have hval := h.validHandle hd
    cases hE : E (handleInternal hd) with
    | none =>
      rw [hE] at hval
      refine ⟨.err .stale, mu, E, ?_, Step.same h _ _ ⟨rfl, .inr rfl⟩
        (fun i => allocs_err i _ _)⟩
      simp [MUnit.exec, MUnit.writeCounters, hval, MCode.out]
    | some kv =>
      rw [hE] at hval
      refine ⟨.done, _, E, by
          simp only [MUnit.exec, MUnit.writeCounters, hval, Option.bind_eq_bind, Option.bind_some,
            Option.isSome_some, Bool.not_true, Bool.false_eq_true, if_false, if_pos (h.lt hE)]
          rfl, ?_⟩
      refine ⟨h.of_eq _ rfl rfl rfl rfl h.ls ?_, ⟨rfl, .inl rfl⟩, rfl, rfl, fun _ _ => rfl,
          by simp, ?_, fun _ hn _ => hn⟩
      · intro j
        by_cases hj : j = handleInternal hd
        · subst hj; simp [setAt_self]
        · simp [setAt_of_ne _ _ hj]
      · intro _ j hz
        by_cases hj : j = handleInternal hd
        · subst hj; simpa [setAt_self] using hz
        · simpa [setAt_of_ne _ _ hj] using hz

/-- Whole histories. -/
theorem run (ops : List (TOp K V)) : ∀ {mu : MUnit L V R} {E : Nat → Option (K × V)},
    MRep W mu E → (∀ op ∈ ops, op.Valid sp) →
    ∃ outs mu' E', mu.run ops = some (outs, mu') ∧ MRep W mu' E' ∧ mu'.size = mu.size ∧
      mu'.sizeKey = mu.sizeKey ∧
      TTrace sp mu.size (decide (mu.sizeKey = 0)) (mu.tab E) ops outs (mu'.tab E') ∧
      ((∀ op ∈ ops, op ≠ .reset) → ∀ i,
        mu'.phase E' i % 256 = (mu.phase E i + reuses i ops outs) % 256) ∧
      ((∀ op ∈ ops, ∀ h ttl now, op ≠ .setTtl h ttl now) → ∀ i, (mu.metas i).timeoutMs = 0 →
        (mu'.metas i).timeoutMs = 0) ∧
      (∀ i, E i = none → reuses i ops outs = 0 → E' i = none) := by
  induction ops with
  | nil => intro mu E h _; exact ⟨[], mu, E, rfl, h, rfl, rfl, .nil _, by simp [reuses], by simp,
      fun _ hn _ => hn⟩
  | cons op ops ih =>
    intro mu E h hv
    obtain ⟨o, mu1, E1, e1, st⟩ := h.exec op (hv op (by simp))
    obtain ⟨os, mu2, E2, e2, r2, z2, k2, t2, p2, l2, d2⟩ := ih st.rep (fun o ho => hv o (by simp [ho]))
    refine ⟨o :: os, mu2, E2, by simp [MUnit.run, e1, e2], r2, by rw [z2, st.size],
      by rw [k2, st.sizeKey], ?_, ?_, ?_, ?_⟩
    · refine .cons st.spec ?_
      rw [st.size, st.sizeKey] at t2
      exact t2
    · intro hr i
      have a := st.phase (hr op (by simp)) i
      have b := p2 (fun o ho => hr o (by simp [ho])) i
      rw [reuses_cons]
      omega
    · intro hr i hz
      exact l2 (fun o ho => hr o (by simp [ho])) i (st.ttl (hr op (by simp)) i hz)
    · intro i hn hz
      rw [reuses_cons] at hz
      exact d2 i (st.dead i hn (by omega)) (by omega)

end MRep
end Bm
