import Verif.Lemmas.MatchUnitRun

/-!
# C06, C07, C08, C09, C13, C14: match tables

All theorems quantify over the kind of table (exact, LPM, ternary or range, the latter two with
or without lookup cache), its size (at most `2^24`, the documented maximum), its key width, the
type of the values and of the direct meters, and every history of calls.
-/

namespace Bm
open Spec
variable {V R : Type}

/-- `mu` is the state of a table of kind `t` after some history of calls. -/
def Reachable (t : TableKind) (mu : MUnit t.str V R) : Prop :=
  ∃ size sizeKey meters ops outs, size ≤ 2 ^ 24 ∧ (∀ op ∈ ops, op.Valid t.spec) ∧
    (MUnit.init t.str V size sizeKey meters : MUnit t.str V R).run ops = some (outs, mu)

theorem Reachable.rep {t : TableKind} {mu : MUnit t.str V R} (h : Reachable t mu) :
    ∃ E, MRep t.laws mu E := by
  obtain ⟨size, sizeKey, meters, ops, outs, hs, hv, e⟩ := h
  obtain ⟨outs', mu', E', e', r, _⟩ :=
    MRep.run ops (MRep.init t.laws (V := V) size sizeKey hs meters) hv
  rw [e] at e'
  simp only [Option.some.injEq, Prod.mk.injEq] at e'
  obtain ⟨rfl, rfl⟩ := e'
  exact ⟨E', r⟩

/-- **C06.**  A match table behaves, for every history of calls, like a finite map from handles
to entries with at most `size` entries: no call is undefined, and the results are those allowed
by the specification `TStep` (duplicate, full and stale errors exactly when they apply; lookups
return the best matching live entry; the handle list and count are those of the live entries). -/
theorem C06_table_is_map (t : TableKind) (size sizeKey : Nat) (hs : size ≤ 2 ^ 24)
    (meters : Nat → R) (ops : List (TOp t.K V)) (hv : ∀ op ∈ ops, op.Valid t.spec) :
    ∃ outs mu' T', (MUnit.init t.str V size sizeKey meters).run ops = some (outs, mu') ∧
      TTrace t.spec size (decide (sizeKey = 0)) (fun _ => none) ops outs T' := by
  obtain ⟨outs, mu', E', e, _, _, _, tr, _⟩ :=
    MRep.run ops (MRep.init t.laws (V := V) size sizeKey hs meters) hv
  refine ⟨outs, mu', mu'.tab E', e, ?_⟩
  have : (MUnit.init t.str V size sizeKey meters).tab (fun _ => none) = fun _ => none := by
    funext h; simp [MUnit.tab]
  rw [this] at tr
  exact tr

/-- **C07.**  A handle whose entry was deleted is rejected by every later call that reads or
changes the entry, until its slot has been reused 256 times (or the table is reset). -/
theorem C07_stale_handle_rejected (t : TableKind) (mu mu1 mu2 : MUnit t.str V R)
    (hr : Reachable t mu) (h : Nat) (hd : mu.exec (.delete h) = some (.done, mu1))
    (ops : List (TOp t.K V)) (hv : ∀ op ∈ ops, op.Valid t.spec) (hnr : ∀ op ∈ ops, op ≠ .reset)
    (outs : List (TOut t.K V)) (e : mu1.run ops = some (outs, mu2))
    (hreuse : reuses (slotOf h) ops outs < 256) :
    mu2.exec (.get h) = some (.err .stale, mu2) ∧
    mu2.exec (.delete h) = some (.err .stale, mu2) ∧
    ∀ v, mu2.exec (.modify h v) = some (.err .stale, mu2) := by
  obtain ⟨E, rep⟩ := hr.rep
  -- the entry was live
  have hlive : ∃ kv, mu.tab E h = some kv := by
    cases ht : mu.tab E h with
    | some kv => exact ⟨kv, rfl⟩
    | none =>
      obtain ⟨c, e', hc⟩ := rep.delete_stale h ht
      rw [MUnit.exec, e'] at hd
      rcases hc with rfl | rfl <;> simp [MCode.out] at hd
  obtain ⟨kv, ht⟩ := hlive
  obtain ⟨hE, heq⟩ := rep.tab_some ht
  obtain ⟨hm, ls, e1, r1⟩ := rep.delete_live h ht
  rw [MUnit.exec, e1] at hd
  simp only [Option.map_some, Option.some.injEq, Prod.mk.injEq] at hd
  obtain ⟨-, rfl⟩ := hd
  obtain ⟨outs', mu', E', e2, r2, _, _, _, ph, _, dead⟩ := MRep.run ops r1 hv
  rw [e] at e2
  simp only [Option.some.injEq, Prod.mk.injEq] at e2
  obtain ⟨rfl, rfl⟩ := e2
  have ph := ph hnr (handleInternal h)
  have hv256 := rep.ver (handleInternal h)
  have hhv : handleVersion h = (mu.entries (handleInternal h)).version := by
    have := congrArg handleVersion heq
    rwa [handleVersion_set _ _ (rep.lt24 hE), Nat.mod_eq_of_lt hv256] at this
  rw [slotOf_eq] at hreuse
  have hnone : mu2.tab E' h = none := by
    by_contra hne
    obtain ⟨kv', hkv'⟩ := Option.ne_none_iff_exists'.1 hne
    obtain ⟨hE', heq'⟩ := r2.tab_some hkv'
    have hhv' : handleVersion h = (mu2.entries (handleInternal h)).version := by
      have := congrArg handleVersion heq'
      rwa [handleVersion_set _ _ (r2.lt24 hE'), Nat.mod_eq_of_lt (r2.ver _)] at this
    simp only [MUnit.phase, hE', Option.isSome_some, if_true, setAt_self,
      Option.isSome_none, Bool.false_eq_true, if_false, ← hhv', ← hhv] at ph
    have hpos : reuses (handleInternal h) ops outs ≠ 0 := by
      intro h0
      have := dead _ (setAt_self _ _ _) h0
      rw [hE'] at this
      simp at this
    omega
  refine ⟨?_, ?_, ?_⟩
  · obtain ⟨c, e', hc⟩ := r2.get_stale h hnone
    rcases hc with rfl | rfl <;> simp [MUnit.exec, e', MCode.out]
  · obtain ⟨c, e', hc⟩ := r2.delete_stale h hnone
    rcases hc with rfl | rfl <;> simp [MUnit.exec, e', MCode.out]
  · intro v
    obtain ⟨c, e', hc⟩ := r2.modify_stale h v hnone
    rcases hc with rfl | rfl <;> simp [MUnit.exec, e', MCode.out]

/-- **C08.**  A rejected call changes nothing: every later history gives the same results as if
the call had not been made. -/
theorem C08_rejected_changes_nothing (t : TableKind) (mu mu' : MUnit t.str V R)
    (hr : Reachable t mu) (op : TOp t.K V) (hv : op.Valid t.spec) (err : TErr)
    (e : mu.exec op = some (.err err, mu')) :
    mu' = mu ∧ ∀ later, mu'.run later = mu.run later := by
  obtain ⟨E, rep⟩ := hr.rep
  obtain ⟨out, mu1, E1, e1, st⟩ := rep.exec op hv
  rw [e] at e1
  simp only [Option.some.injEq, Prod.mk.injEq] at e1
  obtain ⟨rfl, rfl⟩ := e1
  have := st.reject err rfl
  exact ⟨this, fun _ => by rw [this]⟩

/-- **C09.**  Two live entries never have the same match key, and an addition is rejected as a
duplicate exactly when a live entry has that key. -/
theorem C09_no_duplicate_keys (t : TableKind) (mu : MUnit t.str V R) (hr : Reachable t mu) :
    (∀ h h' k k' v v', mu.exec (.get h) = some (.entry k v, mu) →
      mu.exec (.get h') = some (.entry k' v', mu) → t.spec.same k k' → h = h') ∧
    (∀ k v now, mu.sizeKey ≠ 0 → t.spec.okK k →
      ((∃ mu', mu.exec (.add (some k) v now) = some (.err .duplicate, mu')) ↔
        ∃ h k' v', mu.exec (.get h) = some (.entry k' v', mu) ∧ t.spec.same k' k)) := by
  obtain ⟨E, rep⟩ := hr.rep
  have key : ∀ h k v, mu.exec (.get h) = some (.entry k v, mu) ↔ mu.tab E h = some (k, v) := by
    intro h k v
    cases ht : mu.tab E h with
    | none =>
      obtain ⟨c, e', hc⟩ := rep.get_stale h ht
      rcases hc with rfl | rfl <;> simp [MUnit.exec, e', MCode.out]
    | some kv => simp [MUnit.exec, rep.get_live h ht, Prod.ext_iff]
  constructor
  · intro h h' k k' v v' e e' hs
    rw [key] at e e'
    obtain ⟨h1, h2⟩ := rep.tab_some e
    obtain ⟨h3, h4⟩ := rep.tab_some e'
    have := t.laws.uniq rep.ls (handleInternal h) (handleInternal h') k k' (by simp [h1])
      (by simp [h3]) hs
    rw [h2, h4, this]
  · intro k v now hk hok
    simp only [key]
    change _ ↔ HasSame t.spec (mu.tab E) k
    constructor
    · rintro ⟨mu', e⟩
      by_contra hs
      by_cases hc : mu.numEntries < mu.size
      · obtain ⟨_, _, _, hm, ls, he, _⟩ := rep.add_slot k v now hok hk hs hc
        rw [MUnit.exec, he] at e
        simp at e
      · rw [MUnit.exec, rep.add_full k v now hok hk hs hc] at e
        simp [MCode.out] at e
    · intro hs
      exact ⟨mu, by simp [MUnit.exec, rep.add_dup k v now hok hk hs, MCode.out]⟩

/-- **C13 (part).**  A new entry starts with zero counters and has not expired when it is added;
and if no time-to-live was ever set, no entry ever expires.

Missing: a new entry may inherit the time-to-live and the direct-meter configuration of the entry
that used its slot before (`C13_ttl_inherited`, `C13_meter_inherited`). -/
theorem C13_new_entry_partial (t : TableKind) (mu mu' : MUnit t.str V R) (hr : Reachable t mu)
    (k : t.K) (hk : t.spec.okK k) (v : V) (now h : Nat)
    (e : mu.exec (.add (some k) v now) = some (.handle h, mu')) :
    mu'.queryCounters h = some (.success, some (0, 0)) ∧
    ∀ l, mu'.sweepEntries now = some l → h ∉ l := by
  obtain ⟨E, rep⟩ := hr.rep
  by_cases hkey : mu.sizeKey = 0
  · simp [MUnit.exec, MUnit.addEntry, hkey, MCode.out] at e
  by_cases hs : HasSame t.spec (mu.tab E) k
  · simp [MUnit.exec, rep.add_dup k v now hk hkey hs, MCode.out] at e
  by_cases hc : mu.numEntries < mu.size
  · obtain ⟨hi, hEi, hle, hm, ls, he, hr'⟩ := rep.add_slot k v now hk hkey hs hc
    have hi24 := lt_of_lt_of_le hi rep.size
    rw [MUnit.exec, he] at e
    simp only [Option.map_some, if_true, Option.some.injEq, Prod.mk.injEq, TOut.handle.injEq] at e
    obtain ⟨rfl, rfl⟩ := e
    constructor
    · have hval := hr'.validHandle
        (handleSet (mu.entries mu.handles.firstUnset).version mu.handles.firstUnset)
      rw [handleInternal_set _ _ hi24, setAt_self] at hval
      simp only [MUnit.queryCounters, hval, Option.isSome_some, Option.bind_eq_bind,
        Option.bind_some, handleInternal_set _ _ hi24, Bool.not_true, Bool.false_eq_true, if_false,
        if_pos hi, setAt_self]
      rfl
    · intro l hl hmem
      rw [hr'.mem_sweep hl, handleInternal_set _ _ hi24] at hmem
      simp only [setAt_self, MMeta.reset] at hmem
      omega
  · simp [MUnit.exec, rep.add_full k v now hk hkey hs hc, MCode.out] at e

/-- **C13 (part).**  If no call ever set a time-to-live, no sweep ever reports an entry. -/
theorem C13_no_ttl_no_expiry_partial (t : TableKind) (size sizeKey : Nat) (hs : size ≤ 2 ^ 24)
    (meters : Nat → R) (ops : List (TOp t.K V)) (hv : ∀ op ∈ ops, op.Valid t.spec)
    (hn : ∀ op ∈ ops, ∀ h ttl now, op ≠ .setTtl h ttl now) (outs) (mu : MUnit t.str V R)
    (e : (MUnit.init t.str V size sizeKey meters).run ops = some (outs, mu)) (now : Nat) (l)
    (hl : mu.sweepEntries now = some l) : l = [] := by
  obtain ⟨outs', mu', E', e', r, _, _, _, _, ttl, _⟩ :=
    MRep.run ops (MRep.init t.laws (V := V) size sizeKey hs meters) hv
  rw [e] at e'
  simp only [Option.some.injEq, Prod.mk.injEq] at e'
  obtain ⟨rfl, rfl⟩ := e'
  have ttl := ttl hn
  rw [List.eq_nil_iff_forall_not_mem]
  intro h hmem
  simp only [MUnit.sweepEntries, Option.bind_eq_bind, Option.bind_eq_some_iff] at hl
  obtain ⟨is, _, r', hr1, hr2⟩ := hl
  simp only [Option.pure_def, Option.some.injEq] at hr2
  subst hr2
  rw [List.mem_flatten] at hmem
  obtain ⟨x, hx, hhx⟩ := hmem
  obtain ⟨i, _, hi⟩ := mem_of_mapM hr1 hx
  have := ttl i rfl
  simp only [this, gt_iff_lt, lt_self_iff_false, false_and, if_false] at hi
  split at hi
  · split at hi
    · simp only [Option.some.injEq] at hi; subst hi; simp at hhx
    · simp at hi
  · simp at hi

/-- What the observers say about the entries: contents, handle list. -/
def SameEntries {t : TableKind} (mu mu' : MUnit t.str V R) : Prop :=
  (∀ h, mu'.getEntry h = mu.getEntry h) ∧ mu'.handleList = mu.handleList

theorem live_of_get {t : TableKind} {mu : MUnit t.str V R} {E} (rep : MRep t.laws mu E)
    {h : Nat} {k : t.K} {v : V} (hlive : mu.exec (.get h) = some (.entry k v, mu)) :
    mu.tab E h = some (k, v) := by
  cases ht : mu.tab E h with
  | none =>
    obtain ⟨c, e', hc⟩ := rep.get_stale h ht
    rcases hc with rfl | rfl <;> simp [MUnit.exec, e', MCode.out] at hlive
  | some kv => simpa [MUnit.exec, rep.get_live h ht, Prod.ext_iff] using hlive

theorem valid_of_get {t : TableKind} {mu : MUnit t.str V R} {E} (rep : MRep t.laws mu E)
    {h : Nat} {k : t.K} {v : V} (hlive : mu.exec (.get h) = some (.entry k v, mu)) :
    mu.handles.validHandle (handleInternal h) = some true ∧ handleInternal h < mu.size := by
  obtain ⟨hE, _⟩ := rep.tab_some (live_of_get rep hlive)
  have := rep.validHandle h
  rw [hE] at this
  exact ⟨this, rep.lt hE⟩

theorem ne_slot {t : TableKind} {mu : MUnit t.str V R} {E} (rep : MRep t.laws mu E)
    {h h' : Nat} {k k' : t.K} {v v' : V} (hl : mu.exec (.get h) = some (.entry k v, mu))
    (hl' : mu.exec (.get h') = some (.entry k' v', mu)) (hne : h' ≠ h) :
    handleInternal h' ≠ handleInternal h := by
  have ht := rep.tab_some (live_of_get rep hl)
  have ht' := rep.tab_some (live_of_get rep hl')
  intro hh
  apply hne
  rw [ht'.2, ht.2, hh]

/-- **C14 (part), counters.**  Writing the counters of a live entry sets them, and changes nothing
about any other entry.

Missing: with a stale handle whose slot is in use again the call acts on the new entry instead
of being refused (`C14_stale_handle_writes`). -/
theorem C14_write_counters_partial (t : TableKind) (mu : MUnit t.str V R) (hr : Reachable t mu)
    (h : Nat) (k : t.K) (v : V) (hlive : mu.exec (.get h) = some (.entry k v, mu)) (b p : Nat) :
    ∃ mu', mu.writeCounters h b p = some (.success, mu') ∧
      mu'.queryCounters h = some (.success, some (b, p)) ∧
      (∀ h' k' v', h' ≠ h → mu.exec (.get h') = some (.entry k' v', mu) →
        mu'.queryCounters h' = mu.queryCounters h') ∧
      (∀ h', mu'.queryMeter h' = mu.queryMeter h') ∧
      SameEntries mu mu' ∧ mu'.sweepEntries = mu.sweepEntries := by
  obtain ⟨E, rep⟩ := hr.rep
  obtain ⟨hval, hlt⟩ := valid_of_get rep hlive
  refine ⟨{ mu with
      metas := setAt mu.metas (handleInternal h)
        { mu.metas (handleInternal h) with bytes := b, packets := p } }, ?_, ?_, ?_, ?_, ?_, ?_⟩
  · simp [MUnit.writeCounters, MUnit.validHandle, hval, hlt]
  · simp [MUnit.queryCounters, MUnit.validHandle, hval, hlt, setAt_self]
  · intro h' k' v' hne hl'
    have := ne_slot rep hlive hl' hne
    refine MUnit.queryCounters_congr _ _ _ rfl rfl ?_
    simp [setAt_of_ne _ _ this]
  · intro h'; exact MUnit.queryMeter_congr _ _ _ rfl rfl rfl
  · exact ⟨fun h' => MUnit.getEntry_congr _ _ _ rfl rfl rfl, MUnit.handleList_congr _ _ rfl rfl
      (fun i => by simp only [setAt]; split <;> simp_all)⟩
  · exact MUnit.sweepEntries_congr _ _ rfl rfl (fun i => by simp only [setAt]; split <;> simp_all)

/-- **C14 (part), direct meters.**  Operating on the meter of a live entry changes only that
meter. -/
theorem C14_meter_op_partial (t : TableKind) (mu : MUnit t.str V R) (hr : Reachable t mu)
    (h : Nat) (k : t.K) (v : V) (hlive : mu.exec (.get h) = some (.entry k v, mu))
    (f : R → R × Bool) :
    ∃ r mu', mu.queryMeter h = some (.success, some r) ∧
      mu.meterOp h f = some (if (f r).2 then .success else .error, mu') ∧
      mu'.queryMeter h = some (.success, some (f r).1) ∧
      (∀ h' k' v', h' ≠ h → mu.exec (.get h') = some (.entry k' v', mu) →
        mu'.queryMeter h' = mu.queryMeter h') ∧
      (∀ h', mu'.queryCounters h' = mu.queryCounters h') ∧
      SameEntries mu mu' ∧ mu'.sweepEntries = mu.sweepEntries := by
  obtain ⟨E, rep⟩ := hr.rep
  obtain ⟨hval, hlt⟩ := valid_of_get rep hlive
  refine ⟨mu.meters (handleInternal h), { mu with
      meters := setAt mu.meters (handleInternal h)
        (f (mu.meters (handleInternal h))).1 }, ?_, ?_, ?_, ?_, ?_, ?_, ?_⟩
  · simp [MUnit.queryMeter, MUnit.validHandle, hval, hlt]
  · simp [MUnit.meterOp, MUnit.validHandle, hval, hlt]
  · simp [MUnit.queryMeter, MUnit.validHandle, hval, hlt, setAt_self]
  · intro h' k' v' hne hl'
    have := ne_slot rep hlive hl' hne
    refine MUnit.queryMeter_congr _ _ _ rfl rfl ?_
    simp [setAt_of_ne _ _ this]
  · intro h'; exact MUnit.queryCounters_congr _ _ _ rfl rfl ⟨rfl, rfl⟩
  · exact ⟨fun h' => MUnit.getEntry_congr _ _ _ rfl rfl rfl,
      MUnit.handleList_congr _ _ rfl rfl (fun _ => rfl)⟩
  · exact MUnit.sweepEntries_congr _ _ rfl rfl (fun i => ⟨rfl, rfl, rfl⟩)

/-- **C14 (part), time-to-live.**  Setting the time-to-live of a live entry decides when that
entry expires (counted from now) and changes nothing about any other entry. -/
theorem C14_set_ttl_partial (t : TableKind) (mu : MUnit t.str V R) (hr : Reachable t mu)
    (h : Nat) (k : t.K) (v : V) (hlive : mu.exec (.get h) = some (.entry k v, mu))
    (ttl now : Nat) :
    ∃ mu', mu.setEntryTtl h ttl now = some (.success, mu') ∧
      (∀ h', mu'.queryCounters h' = mu.queryCounters h' ∧ mu'.queryMeter h' = mu.queryMeter h') ∧
      SameEntries mu mu' ∧
      ∀ t0 l l', mu.sweepEntries t0 = some l → mu'.sweepEntries t0 = some l' →
        (h ∈ l' ↔ ttl > 0 ∧ t0 - now ≥ ttl) ∧ ∀ h', h' ≠ h → (h' ∈ l' ↔ h' ∈ l) := by
  obtain ⟨E, rep⟩ := hr.rep
  obtain ⟨hval, hlt⟩ := valid_of_get rep hlive
  have ht := live_of_get rep hlive
  have rep' : MRep t.laws { mu with
      metas := setAt mu.metas (handleInternal h)
        { mu.metas (handleInternal h) with timeoutMs := ttl, ts := now } } E := by
    refine rep.of_eq _ rfl rfl rfl rfl rep.ls ?_
    intro j
    by_cases hj : j = handleInternal h
    · subst hj; simp [setAt_self]
    · simp [setAt_of_ne _ _ hj]
  refine ⟨{ mu with
      metas := setAt mu.metas (handleInternal h)
        { mu.metas (handleInternal h) with timeoutMs := ttl, ts := now } }, ?_, ?_, ?_, ?_⟩
  rotate_left
  · intro h'
    refine ⟨MUnit.queryCounters_congr _ _ _ rfl rfl ?_, MUnit.queryMeter_congr _ _ _ rfl rfl rfl⟩
    simp only [setAt]; split <;> simp_all
  · exact ⟨fun h' => MUnit.getEntry_congr _ _ _ rfl rfl rfl, MUnit.handleList_congr _ _ rfl rfl
      (fun i => by simp only [setAt]; split <;> simp_all)⟩
  · intro t0 l l' hl hl'
    constructor
    · rw [rep'.mem_sweep hl']
      change (mu.tab E h).isSome = true ∧ _ ↔ _
      rw [ht]
      simp [setAt_self]
    · intro h' hne
      rw [rep'.mem_sweep hl', rep.mem_sweep hl]
      change (mu.tab E h').isSome = true ∧ _ ↔ _
      by_cases hs : (mu.tab E h').isSome = true
      · obtain ⟨kv', hkv'⟩ := Option.isSome_iff_exists.1 hs
        have hne' : handleInternal h' ≠ handleInternal h := by
          intro hh
          apply hne
          rw [(rep.tab_some hkv').2, (rep.tab_some ht).2, hh]
        simp [setAt_of_ne _ _ hne']
      · simp [hs]
  · simp [MUnit.setEntryTtl, hval, hlt]

/-- **C14, direct counters on lookup.**  A lookup that hits adds the packet to the counters of
the returned entry (modulo `2^64`) and to no other; a miss counts nowhere. -/
theorem C14_lookup_counts (t : TableKind) (mu mu' : MUnit t.str V R) (hr : Reachable t mu)
    (q : Bytes) (hq : t.spec.okQ q) (nb ts : Nat) :
    (∀ h v, mu.exec (.lookup q nb ts) = some (.hit h v, mu') →
      (∃ b p, mu.queryCounters h = some (.success, some (b, p)) ∧
        mu'.queryCounters h = some (.success, some ((b + nb) % 2 ^ 64, (p + 1) % 2 ^ 64))) ∧
      ∀ h' k' v', h' ≠ h → mu.exec (.get h') = some (.entry k' v', mu) →
        mu'.queryCounters h' = mu.queryCounters h') ∧
    (mu.exec (.lookup q nb ts) = some (.miss, mu') →
      ∀ h, mu'.queryCounters h = mu.queryCounters h) := by
  obtain ⟨E, rep⟩ := hr.rep
  obtain ⟨ls, hl, h1 | ⟨i, k, w, hE, hm, hb, e⟩⟩ := rep.lookup q nb ts hq
  · rw [MUnit.exec, h1.1]
    refine ⟨by simp, ?_⟩
    intro e h
    simp only [Option.map_some, Option.some.injEq, Prod.mk.injEq, true_and] at e
    subst e
    exact MUnit.queryCounters_congr _ _ _ rfl rfl ⟨rfl, rfl⟩
  · rw [MUnit.exec, e]
    refine ⟨?_, by simp⟩
    intro h v e
    simp only [Option.map_some, Option.some.injEq, Prod.mk.injEq, TOut.hit.injEq] at e
    obtain ⟨⟨rfl, rfl⟩, rfl⟩ := e
    have hi24 := rep.lt24 hE
    have hval := rep.validHandle (handleSet (mu.entries i).version i)
    rw [MUnit.validHandle, handleInternal_set _ _ hi24, hE] at hval
    constructor
    · refine ⟨(mu.metas i).bytes, (mu.metas i).packets, ?_, ?_⟩
      · simp [MUnit.queryCounters, MUnit.validHandle, handleInternal_set _ _ hi24, hval, rep.lt hE]
      · simp [MUnit.queryCounters, MUnit.validHandle, handleInternal_set _ _ hi24, hval, rep.lt hE,
          setAt_self]
    · intro h' k' v' hne hl'
      obtain ⟨hE', heq'⟩ := rep.tab_some (live_of_get rep hl')
      have : handleInternal h' ≠ i := by
        intro hh
        rw [hh] at heq'
        exact hne heq'
      refine MUnit.queryCounters_congr _ _ _ rfl rfl ?_
      simp [setAt_of_ne _ _ this]

/-! ## Concrete cases -/

/-- A small exact table with values and meters that are numbers. -/
def demo : MUnit (TableKind.exact 1).str Nat Nat := MUnit.init _ Nat 2 1 (fun _ => 0)

/-- Entry with key `[1]` added at time 10, given a time-to-live, deleted; then key `[2]`. -/
def demoOps : List (TOp (TableKind.exact 1).K Nat) :=
  [.add (some [1]) 7 10, .setTtl 0 100 10, .delete 0, .add (some [2]) 8 20]

-- the hypotheses of C06, C07, C08, C09, C13 and C14 are met by this history
example : ∀ op ∈ demoOps, op.Valid (TableKind.exact 1).spec := by
  simp [demoOps, TOp.Valid, exactSpec]

example : (demo.run demoOps).map Prod.fst = some [.handle 0, .done, .done, .handle 16777216] := by
  decide +kernel

-- duplicates, full tables, stale handles, lookups, handle lists
example : (demo.run (demoOps ++ [.add (some [2]) 9 30, .add (some [3]) 9 30, .add (some [4]) 9 30,
    .get 0, .get 1, .modify 0 5, .lookup [2] 64 40, .lookup [9] 64 40, .handles, .count,
    .retrieve (some [3]), .delete 1, .delete 1, .reset, .count])).map Prod.fst =
    some [.handle 0, .done, .done, .handle 16777216, .err .duplicate, .handle 1, .err .full,
      .err .stale, .entry [3] 9, .err .stale, .hit 16777216 8, .miss, .handles [16777216, 1],
      .num 2, .handle 1, .done, .err .stale, .done, .num 0] := by decide +kernel

-- a ternary table with two overlapping entries
example : ((MUnit.init (TableKind.ternary 1 true).str Nat 4 1 (fun _ => ()) :
      MUnit (TableKind.ternary 1 true).str Nat Unit).run
    [.add (some ⟨[0x10], [0xf0], 5⟩) 1 0, .add (some ⟨[0x12], [0xff], 3⟩) 2 0,
     .lookup [0x12] 64 0, .lookup [0x13] 64 0, .delete 1, .lookup [0x12] 64 0]).map Prod.fst =
    some [.handle 0, .handle 1, .hit 1 2, .hit 0 1, .done, .hit 0 1] := by decide +kernel

-- an LPM table
example : ((MUnit.init (TableKind.lpm 2).str Nat 4 1 (fun _ => ()) :
      MUnit (TableKind.lpm 2).str Nat Unit).run
    [.add (some ⟨[10, 0], 8⟩) 1 0, .add (some ⟨[10, 64], 10⟩) 2 0, .add (some ⟨[10, 1], 8⟩) 3 0,
     .lookup [10, 65] 64 0, .lookup [10, 1] 64 0, .lookup [11, 1] 64 0]).map Prod.fst =
    some [.handle 0, .handle 1, .err .duplicate, .hit 1 2, .hit 0 1, .miss] := by decide +kernel

-- a range table
example : ((MUnit.init (TableKind.range 1 false).str Nat 4 1 (fun _ => ()) :
      MUnit (TableKind.range 1 false).str Nat Unit).run
    [.add (some ⟨[10], [20], 5, [1]⟩) 1 0, .add (some ⟨[15], [30], 6, [1]⟩) 2 0,
     .lookup [16] 64 0, .lookup [25] 64 0, .lookup [31] 64 0]).map Prod.fst =
    some [.handle 0, .handle 1, .hit 0 1, .hit 1 2, .miss] := by decide +kernel

/-! ## Where the code does not meet the property -/

/-- **C13 fails.**  No time-to-live was ever set for the second entry (handle `2^24`), and it
was added at time 20; yet the sweep at time 120 reports it as expired: it inherited the
time-to-live of the deleted entry. -/
theorem C13_ttl_inherited :
    (demo.run demoOps).map Prod.fst = some [.handle 0, .done, .done, .handle (2 ^ 24)] ∧
    ((demo.run demoOps).bind fun (_, mu) => mu.sweepEntries 120) = some [2 ^ 24] := by
  decide +kernel

/-- **C13 fails (direct meters).**  The second entry starts with the meter configuration (here:
the number 5) given to the entry that used its slot before. -/
theorem C13_meter_inherited :
    (do
      let (_, mu) ← demo.run [.add (some [1]) 7 10]
      let (_, mu) ← mu.meterOp 0 (fun _ => (5, true))
      let (outs, mu) ← mu.run [.delete 0, .add (some [2]) 8 20]
      let m ← mu.queryMeter (2 ^ 24)
      return (outs, m)) = some ([.done, .handle (2 ^ 24)], (.success, some 5)) := by
  decide +kernel

/-- **C14 fails.**  Handle 0 is stale after `demoOps` (reading through it is refused), but
writing counters through it succeeds and changes the counters of the new entry. -/
theorem C14_stale_handle_writes :
    (do
      let (outs, mu) ← demo.run (demoOps ++ [.get 0, .writeCounters 0 1000 3])
      let c ← mu.queryCounters (2 ^ 24)
      return (outs.drop 4, c)) = some ([.err .stale, .done], (.success, some (1000, 3))) := by
  decide +kernel

/-- After a reset, versions start again: the handle of an entry deleted before the reset is valid
for the first entry added to the slot afterwards.  This is why `C07_stale_handle_rejected`
excludes resets. -/
theorem C07_reset_revives_handles :
    (demo.run [.add (some [1]) 7 10, .delete 0, .reset, .add (some [2]) 8 20, .get 0]).map Prod.fst
      = some [.handle 0, .done, .done, .handle 0, .entry [2] 8] := by
  decide +kernel

end Bm
