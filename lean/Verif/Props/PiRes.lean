import Verif.Lemmas.PiRes
import Verif.Lemmas.MatchUnitRun

/-!
# C91: idle timeouts, direct counters and direct meters through PI

`MRep W t.mu E` says that `E` gives the entry in each slot of the table `t`; it holds for a new table
and is kept by all operations (C06).  `t.mu.tab E h` is the entry with the handle `h`.
-/

namespace Bm.PiRes
open Bm.PiRes.Spec Bm.Spec

variable {K : Type} {L : LookupStr K} {V : Type} {sp : MatchSpec K} {W : Laws L sp}

/-- **C91**, counters: a write through PI sets the units that are given, keeps the others, and
changes nothing else. -/
theorem C91_counter {t : Tbl L V} {E : Nat → Option (K × V)} {h : Nat} {kv : K × V}
    (hr : MRep W t.mu E) (hh : t.mu.tab E h = some kv) (hc : t.counters = true) (d : CounterData) :
    ∃ b p t', counterRead t h = some (.success, some ⟨some b, some p⟩) ∧
      counterWrite t h d = some (.success, t') ∧
      counterRead t' h = some (.success, some (written d (b, p))) ∧
      meterRead t' h = meterRead t h ∧ (∀ now, remaining t' h now = remaining t h now) ∧
      OthersSame t t' h ∧ MRep W t'.mu E ∧ t'.mu.tab E = t.mu.tab E := by
  have hl := Live.ofRep hr hh
  have hd := ne_default hr hh
  have key : ∀ b' p', ∃ t', mtWriteCounters t h b' p' = some (.success, t') ∧
      counterRead t' h = some (.success, some ⟨some b', some p'⟩) ∧
      meterRead t' h = meterRead t h ∧ (∀ now, remaining t' h now = remaining t h now) ∧
      OthersSame t t' h ∧ MRep W t'.mu E ∧ t'.mu.tab E = t.mu.tab E := by
    intro b' p'
    have sm := same_metas t (handleInternal h) { t.mu.metas (handleInternal h) with
        bytes := b', packets := p' } rfl
    refine ⟨_, writeCounters_live hl hc b' p', ?_, rfl, ?_, sm.others, sm.rep hr,
      funext fun x => sm.tab E x⟩
    · rw [readCounters_live (sm.live hl) hc hd]
      simp [setAt, toCounter]
    · intro now
      rw [remaining_live (sm.rep hr) (by rw [sm.tab]; exact hh), remaining_live hr hh]
      simp [setAt]
  refine ⟨(t.mu.metas (handleInternal h)).bytes, (t.mu.metas (handleInternal h)).packets, ?_⟩
  have hread := readCounters_live hl hc hd
  obtain ⟨db, dp⟩ := d
  have fin : ∀ b' p', counterWrite t h ⟨db, dp⟩ = mtWriteCounters t h b' p' →
      (⟨some b', some p'⟩ : CounterData) = written ⟨db, dp⟩
        ((t.mu.metas (handleInternal h)).bytes, (t.mu.metas (handleInternal h)).packets) →
      ∃ t', counterRead t h = some (.success,
          some ⟨some (t.mu.metas (handleInternal h)).bytes, some (t.mu.metas (handleInternal h)).packets⟩) ∧
        counterWrite t h ⟨db, dp⟩ = some (.success, t') ∧
        counterRead t' h = some (.success, some (written ⟨db, dp⟩
          ((t.mu.metas (handleInternal h)).bytes, (t.mu.metas (handleInternal h)).packets))) ∧
        meterRead t' h = meterRead t h ∧ (∀ now, remaining t' h now = remaining t h now) ∧
        OthersSame t t' h ∧ MRep W t'.mu E ∧ t'.mu.tab E = t.mu.tab E := by
    intro b' p' he hw
    obtain ⟨t', e1, e2, e3⟩ := key b' p'
    exact ⟨t', hread, by rw [he, e1], by rw [e2, hw], e3⟩
  cases db with
  | some b =>
    cases dp with
    | some p => exact fin b p (by simp [counterWrite, hd, fromCounter]) rfl
    | none =>
      refine fin b (t.mu.metas (handleInternal h)).packets ?_ rfl
      simp [counterWrite, hd, hread, merge, fromCounter, toCounter]
  | none =>
    cases dp with
    | some p =>
      refine fin (t.mu.metas (handleInternal h)).bytes p ?_ rfl
      simp [counterWrite, hd, hread, merge, fromCounter, toCounter]
    | none =>
      refine fin (t.mu.metas (handleInternal h)).bytes (t.mu.metas (handleInternal h)).packets ?_ rfl
      simp [counterWrite, hd, hread, merge, fromCounter, toCounter]

/-- **C91**, meters: a proper configuration is accepted and read back, each rate as it was or one
below; the default configuration comes back as such; nothing else changes.

Missing: rates come back exactly (`C91_refuted_rate`; `C91_meter_exact` for whole numbers of units per
microsecond). -/
theorem C91_meter_partial {t : Tbl L V} {E : Nat → Option (K × V)} {h : Nat} {kv : K × V}
    (hr : MRep W t.mu E) (hh : t.mu.tab E h = some kv) (hc : t.meters = true)
    (hm : (t.mu.meters (handleInternal h)).rates.length = 2) {s : MeterSpec} (hs : Proper s) :
    ∃ t' got, meterSet t h s = some (.success, t') ∧
      meterRead t' h = some (.success, some got) ∧ Shows s got ∧
      (s = MeterSpec.default → got = MeterSpec.default) ∧
      counterRead t' h = counterRead t h ∧ (∀ now, remaining t' h now = remaining t h now) ∧
      OthersSame t t' h ∧ MRep W t'.mu E ∧ t'.mu.tab E = t.mu.tab E := by
  have hl := Live.ofRep hr hh
  have hd := ne_default hr hh
  obtain ⟨m', e1, e2, got, e3, e4, e5⟩ := meter_update hm hs
  have sm := same_meters t (handleInternal h) m'
  refine ⟨{ t with mu := { t.mu with meters := setAt t.mu.meters (handleInternal h) m' } }, got, ?_, ?_,
    e4, e5, rfl, fun _ => rfl, sm.others, sm.rep hr, rfl⟩
  · unfold meterSet
    rw [if_neg hd]
    exact setRates_live hl hc e1
  · exact readMeter_live (sm.live hl) hc hd (by simpa [setAt] using e3)

/-- **C91**, meters with rates that are multiples of 10^6: read back exactly. -/
theorem C91_meter_exact {t : Tbl L V} {E : Nat → Option (K × V)} {h : Nat} {kv : K × V}
    (hr : MRep W t.mu E) (hh : t.mu.tab E h = some kv) (hc : t.meters = true)
    (hm : (t.mu.meters (handleInternal h)).rates.length = 2) {a b ba bb : Nat} (hab : a ≤ b)
    (hb : b * 1000000 < 2 ^ 53) (h1 : ba < 2 ^ 32) (h2 : bb < 2 ^ 32) :
    ∃ t', meterSet t h ⟨a * 1000000, ba, b * 1000000, bb⟩ = some (.success, t') ∧
      meterRead t' h = some (.success, some ⟨a * 1000000, ba, b * 1000000, bb⟩) := by
  have hl := Live.ofRep hr hh
  have hd := ne_default hr hh
  have hne : (⟨a * 1000000, ba, b * 1000000, bb⟩ : MeterSpec) ≠ MeterSpec.default := by
    intro h0
    have := congrArg MeterSpec.pir h0
    simp only [MeterSpec.default] at this
    omega
  have hf := fromSpec_proper hne
  simp only at hf
  obtain ⟨m', e1, e2, e3⟩ := applyRates_two hm (a := ⟨rateOf (a * 1000000), ba⟩)
    (b := ⟨rateOf (b * 1000000), bb⟩) (rateOf_mono (Nat.mul_le_mul_right _ hab))
  have sm := same_meters t (handleInternal h) m'
  refine ⟨{ t with mu := { t.mu with meters := setAt t.mu.meters (handleInternal h) m' } }, ?_, ?_⟩
  · unfold meterSet
    rw [if_neg hd]
    refine setRates_live hl hc ?_
    rw [hf]
    simpa using e1
  · refine readMeter_live (sm.live hl) hc hd ?_
    simp only [setAt, if_true, e3, toSpec]
    rw [rate_exact (Nat.lt_of_le_of_lt (Nat.mul_le_mul_right _ hab) hb), rate_exact hb, Nat.mod_eq_of_lt h1, Nat.mod_eq_of_lt h2]

/-- **C91**, idle timeouts: a timeout between 1 and 4294 milliseconds given at `now` is shown as the
rest of it at any later time, and the entry is reported as idle when nothing of it is left.

Missing: other timeouts (`C91_refuted_ttl_long`, `C91_refuted_ttl_short`). -/
theorem C91_ttl_partial {t : Tbl L V} {E : Nat → Option (K × V)} {h : Nat} {kv : K × V}
    (hr : MRep W t.mu E) (hh : t.mu.tab E h = some kv) (hc : t.ageing = true) {ns : Nat}
    (h1 : 1000000 ≤ ns) (h2 : ns < 4295000000) (now : Nat) :
    ∃ t', setTtl t h (some ns) now = some (.success, t') ∧
      (∀ e < 2 ^ 32, remaining t' h (now + e) = some (.success, restNs ns e) ∧
        ∀ l, t'.mu.sweepEntries (now + e) = some l → (h ∈ l ↔ restNs ns e = 0)) ∧
      counterRead t' h = counterRead t h ∧ meterRead t' h = meterRead t h ∧
      OthersSame t t' h ∧ MRep W t'.mu E ∧ t'.mu.tab E = t.mu.tab E := by
  have hl := Live.ofRep hr hh
  have sm := same_metas t (handleInternal h) { t.mu.metas (handleInternal h) with
        timeoutMs := ttlMs ns, ts := now } rfl
  refine ⟨_, setTtl_live hl hc _ _, ?_, ?_, rfl, sm.others, sm.rep hr, funext fun x => sm.tab E x⟩
  · intro e he
    constructor
    · rw [remaining_live (sm.rep hr) (by rw [sm.tab]; exact hh)]
      simp only [hc, if_true, setAt, Nat.add_sub_cancel_left]
      rw [remainingNs_ok h1 h2 he]
    · intro l hsw
      rw [(sm.rep hr).mem_sweep hsw, sm.tab, hh]
      have hm : ns / 1000000 < 2 ^ 32 := by omega
      have hm1 : 1 ≤ ns / 1000000 := by omega
      simp only [setAt, if_true, Option.isSome_some, true_and, Nat.add_sub_cancel_left, ttlMs,
        Nat.mod_eq_of_lt hm, restNs]
      omega
  · simp [counterRead, mtReadCounters, MUnit.queryCounters, MUnit.validHandle, setAt]

/-- What an entry written through PI with the given resources shows. -/
def Configured (t' : Tbl L V) (h : Nat) (ttl : Option Nat) (rs : List Res) (now : Nat) : Prop :=
  (∀ ns, ttl = some ns → ∀ e < 2 ^ 32, 1000000 ≤ ns → ns < 4295000000 →
    remaining t' h (now + e) = some (.success, restNs ns e)) ∧
  (∀ d, lastCounter rs = some d → counterRead t' h = some (.success, some (written d (0, 0)))) ∧
  (∀ s, lastMeter rs = some s → ∃ got, meterRead t' h = some (.success, some got) ∧ Shows s got)

theorem configured_of {t1 : Tbl L V} {E : Nat → Option (K × V)} {h : Nat} {kv : K × V}
    (hr : MRep W t1.mu E) (hh : t1.mu.tab E h = some kv)
    (hm : (t1.mu.meters (handleInternal h)).rates.length = 2) (ttl : Option Nat) (rs : List Res) (now : Nat)
    (hage : ttl.isSome = true → t1.ageing = true)
    (hrs : ∀ r ∈ rs, Enabled t1 r) :
    ∃ t2 t3, setTtl t1 h ttl now = some (.success, t2) ∧ setAllRes t2 h rs = some (.success, t3) ∧
      Same t1 t3 (handleInternal h) ∧ Configured t3 h ttl rs now ∧
      (lastCounter rs = none → t1.counters = true → counterRead t3 h = counterRead t1 h) ∧
      (lastMeter rs = none → meterRead t3 h = meterRead t1 h) := by
  have hl := Live.ofRep hr hh
  have hd := ne_default hr hh
  obtain ⟨t2, e2, sm, hms, hmeta, hctr⟩ : ∃ t2, setTtl t1 h ttl now = some (.success, t2) ∧
      Same t1 t2 (handleInternal h) ∧ t2.mu.meters = t1.mu.meters ∧
      (∀ ns, ttl = some ns → t2.ageing = true ∧ (t2.mu.metas (handleInternal h)).ts = now ∧
        (t2.mu.metas (handleInternal h)).timeoutMs = ttlMs ns) ∧
      ((t2.mu.metas (handleInternal h)).bytes, (t2.mu.metas (handleInternal h)).packets) =
        ((t1.mu.metas (handleInternal h)).bytes, (t1.mu.metas (handleInternal h)).packets) := by
    cases ttl with
    | none => exact ⟨t1, rfl, Same.refl _ _, rfl, fun ns h0 => by simp at h0, rfl⟩
    | some ns =>
      refine ⟨_, setTtl_live hl (hage rfl) _ _, same_metas t1 (handleInternal h)
        { t1.mu.metas (handleInternal h) with timeoutMs := ttlMs ns, ts := now } rfl, rfl, ?_, ?_⟩
      · intro ns' h0
        simp only [Option.some.injEq] at h0
        subst h0
        exact ⟨hage rfl, by simp [setAt], by simp [setAt]⟩
      · simp [setAt]
  have hen : ∀ r ∈ rs, Enabled t2 r := by
    intro r hr'
    have := hrs r hr'
    cases r with
    | counter d => exact (show t2.counters = true by rw [sm.fc]; exact this)
    | meter s => exact ⟨by rw [sm.fm]; exact this.1, this.2⟩
  obtain ⟨t3, a1, a2, a3, a4, a5, a6, a7⟩ := setAllRes_ok (sm.live hl) (by rw [hms]; exact hm) rs hen
  have sm3 := sm.trans a2
  refine ⟨t2, t3, e2, a1, sm3, ⟨?_, ?_, ?_⟩, ?_, ?_⟩
  · intro ns hns e he hlo hhi
    obtain ⟨g1, g2, g3⟩ := hmeta ns hns
    rw [remaining_live (sm3.rep hr) (by rw [sm3.tab]; exact hh), a2.fa, g1, a3, a4, g2, g3]
    simp only [if_true, Nat.add_sub_cancel_left]
    rw [remainingNs_ok hlo hhi he]
  · intro d hdd
    have hc : t3.counters = true := by
      rw [sm3.fc]
      have : ∃ d', Res.counter d' ∈ rs := by
        clear hen hrs a1 a5 a6 a7
        induction rs with
        | nil => simp [lastCounter] at hdd
        | cons r rs ih =>
          cases r with
          | counter d' => exact ⟨d', List.mem_cons_self ..⟩
          | meter s =>
            obtain ⟨d', h'⟩ := ih hdd
            exact ⟨d', List.mem_cons_of_mem _ h'⟩
      obtain ⟨d', h'⟩ := this
      exact hrs _ h'
    rw [readCounters_live (sm3.live hl) hc hd]
    simp only [ctrAfter, hdd, fromCounter, Prod.mk.injEq] at a5
    rw [a5.1, a5.2]
    rfl
  · intro s hs
    obtain ⟨got, g1, g2, -⟩ := a7 s hs
    have hc : t3.meters = true := by
      rw [sm3.fm]
      have : ∃ s', Res.meter s' ∈ rs := by
        clear hen hrs a1 a5 a6 a7
        induction rs with
        | nil => simp [lastMeter] at hs
        | cons r rs ih =>
          cases r with
          | meter d' => exact ⟨d', List.mem_cons_self ..⟩
          | counter s =>
            obtain ⟨d', h'⟩ := ih hs
            exact ⟨d', List.mem_cons_of_mem _ h'⟩
      obtain ⟨d', h'⟩ := this
      exact (hrs _ h').1
    exact ⟨got, readMeter_live (sm3.live hl) hc hd g1, g2⟩
  · intro hn hc
    rw [readCounters_live (sm3.live hl) (by rw [sm3.fc]; exact hc) hd, readCounters_live hl hc hd]
    simp only [ctrAfter, hn] at a5
    rw [hctr] at a5
    simp only [Prod.mk.injEq] at a5
    rw [a5.1, a5.2]
  · intro hn
    have hmm := a6 hn
    rw [hms] at hmm
    simp only [meterRead, mtGetRates, MUnit.queryMeter, MUnit.validHandle, sm3.fm, sm3.handles, sm3.size, hmm]

/-- **C91**, adding an entry: if there is room, the key is new and the program has the resources
that are given, then the entry is there, with the timeout, the counters (zero where not given) and
the meter configuration; other entries keep theirs. -/
theorem C91_add {t : Tbl L V} {E : Nat → Option (K × V)} (hr : MRep W t.mu E) {k : K} (v : V)
    (hk : sp.okK k) (hkey : t.mu.sizeKey ≠ 0) (hns : ¬ HasSame sp (t.mu.tab E) k)
    (hroom : t.mu.numEntries < t.mu.size) (hm : ∀ i, (t.mu.meters i).rates.length = 2)
    (ttl : Option Nat) (rs : List Res) (now : Nat) (hage : ttl.isSome = true → t.ageing = true)
    (hrs : ∀ r ∈ rs, Enabled t r) :
    ∃ h t' E', entryAdd t (some k) v ttl rs now = some (.success, h, t') ∧ MRep W t'.mu E' ∧
      t.mu.tab E h = none ∧ (∀ h', t'.mu.tab E' h' = if h' = h then some (k, v) else t.mu.tab E h') ∧
      Configured t' h ttl rs now ∧
      (lastCounter rs = none → t.counters = true →
        counterRead t' h = some (.success, some ⟨some 0, some 0⟩)) := by
  obtain ⟨hi, hEi, -, hm', ls, he, hr1⟩ := hr.add_slot k v now hk hkey hns hroom
  have hi24 : t.mu.handles.firstUnset < 2 ^ 24 := lt_of_lt_of_le hi hr.size
  generalize hdef : handleSet (t.mu.entries t.mu.handles.firstUnset).version t.mu.handles.firstUnset = h at *
  have hint : handleInternal h = t.mu.handles.firstUnset := by
    rw [← hdef]; exact handleInternal_set _ _ hi24
  generalize hmu : ({ t.mu with
            numEntries := t.mu.numEntries + 1
            handles := hm'
            entries := setAt t.mu.entries t.mu.handles.firstUnset
              { version := (t.mu.entries t.mu.handles.firstUnset).version, kv := some (k, v) }
            lstr := ls
            metas := setAt t.mu.metas t.mu.handles.firstUnset
              { (t.mu.metas t.mu.handles.firstUnset).reset now with
                version := (t.mu.entries t.mu.handles.firstUnset).version } } : MUnit L V Mtr) = mu1 at *
  have hver : ∀ j, (mu1.entries j).version = (t.mu.entries j).version := by
    intro j; rw [← hmu]; simp only [setAt]; split
    · rename_i hj; rw [hj]
    · rfl
  have htab1 : ∀ h', mu1.tab (setAt E t.mu.handles.firstUnset (some (k, v))) h'
      = if h' = h then some (k, v) else t.mu.tab E h' := by
    intro h'
    unfold MUnit.tab
    rw [hver]
    by_cases heq : h' = h
    · subst heq
      rw [if_pos rfl, hint, ← hdef, handleVersion_set _ _ hi24, Nat.mod_eq_of_lt (hr.ver _), if_pos rfl]
      simp [setAt]
    · rw [if_neg heq]
      by_cases hv : handleVersion h' = (t.mu.entries (handleInternal h')).version
      · rw [if_pos hv, if_pos hv]
        by_cases hsl : handleInternal h' = t.mu.handles.firstUnset
        · exfalso
          apply heq
          have hlt : handleVersion h' < 256 := by rw [hv]; exact hr.ver _
          rw [← handleSet_self h' hlt, hv, hsl, hdef]
        · simp [setAt, hsl]
      · rw [if_neg hv, if_neg hv]
  have hnone : t.mu.tab E h = none := by
    unfold MUnit.tab
    rw [hint, hEi]
    split <;> rfl
  have hh1 := htab1 h
  rw [if_pos rfl] at hh1
  obtain ⟨t2, t3, f1, f2, f3, f4, f5, f6⟩ := configured_of (t1 := { t with mu := mu1 }) hr1 hh1
    (by rw [← hmu]; exact hm _) ttl rs now hage (fun r hr' => by
      have := hrs r hr'
      cases r with
      | counter d => exact this
      | meter s => exact this)
  refine ⟨h, t3, _, ?_, f3.rep hr1, hnone, fun h' => by rw [f3.tab]; exact htab1 h', f4, ?_⟩
  · simp only [entryAdd, he, Option.bind_eq_bind, Option.bind_some, ne_eq, not_true_eq_false, if_false]
    rw [f1]
    simp only [Option.bind_some, not_true_eq_false, if_false]
    rw [f2]
    rfl
  · intro hn hc
    rw [f5 hn hc, readCounters_live (t := { t with mu := mu1 }) (Live.ofRep (t := { t with mu := mu1 }) hr1 hh1) hc
      (ne_default (t := { t with mu := mu1 }) hr1 hh1), hint, ← hmu]
    simp [setAt, MMeta.reset, toCounter]

/-- **C91**, changing an entry: the value is changed, the resources that are given are set, others
are kept.

Missing: counters whose units are only given in part (the other unit is set to zero,
`C91_refuted_modify`). -/
theorem C91_modify_partial {t : Tbl L V} {E : Nat → Option (K × V)} (hr : MRep W t.mu E) {h : Nat}
    {k : K} {v0 : V} (hh : t.mu.tab E h = some (k, v0)) (v : V)
    (hm : (t.mu.meters (handleInternal h)).rates.length = 2)
    (ttl : Option Nat) (rs : List Res) (now : Nat) (hage : ttl.isSome = true → t.ageing = true)
    (hrs : ∀ r ∈ rs, Enabled t r) :
    ∃ t' E', entryModify t h v ttl rs now = some (.success, t') ∧ MRep W t'.mu E' ∧
      (∀ h', t'.mu.tab E' h' = if h' = h then some (k, v) else t.mu.tab E h') ∧
      Configured t' h ttl rs now ∧
      (lastCounter rs = none → t.counters = true → counterRead t' h = counterRead t h) ∧
      (lastMeter rs = none → meterRead t' h = meterRead t h) := by
  obtain ⟨he, hr1⟩ := hr.modify_live h v hh
  generalize hmu : ({ t.mu with
      entries := setAt t.mu.entries (handleInternal h)
        { t.mu.entries (handleInternal h) with kv := some (k, v) } } : MUnit L V Mtr) = mu1 at *
  have hver : ∀ j, (mu1.entries j).version = (t.mu.entries j).version := by
    intro j; rw [← hmu]; simp only [setAt]; split
    · rename_i hj; rw [hj]
    · rfl
  obtain ⟨hE, hset⟩ := hr.tab_some hh
  have htab1 : ∀ h', mu1.tab (setAt E (handleInternal h) (some (k, v))) h'
      = if h' = h then some (k, v) else t.mu.tab E h' := by
    intro h'
    unfold MUnit.tab
    rw [hver]
    by_cases heq : h' = h
    · subst heq
      have hv : handleVersion h' = (t.mu.entries (handleInternal h')).version := by
        conv => lhs; rw [hset]
        rw [handleVersion_set _ _ (hr.lt24 hE), Nat.mod_eq_of_lt (hr.ver _)]
      rw [if_pos rfl, if_pos hv]
      simp [setAt]
    · rw [if_neg heq]
      by_cases hv : handleVersion h' = (t.mu.entries (handleInternal h')).version
      · rw [if_pos hv, if_pos hv]
        by_cases hsl : handleInternal h' = handleInternal h
        · exfalso
          apply heq
          have hlt : handleVersion h' < 256 := by rw [hv]; exact hr.ver _
          rw [← handleSet_self h' hlt, hv, hsl, ← hset]
        · simp [setAt, hsl]
      · rw [if_neg hv, if_neg hv]
  have hh1 := htab1 h
  rw [if_pos rfl] at hh1
  obtain ⟨t2, t3, f1, f2, f3, f4, f5, f6⟩ := configured_of (t1 := { t with mu := mu1 }) hr1 hh1
    (by rw [← hmu]; exact hm) ttl rs now hage (fun r hr' => by
      have := hrs r hr'
      cases r with
      | counter d => exact this
      | meter s => exact this)
  refine ⟨t3, _, ?_, f3.rep hr1, fun h' => by rw [f3.tab]; exact htab1 h', f4, ?_, ?_⟩
  · simp only [entryModify, he, Option.bind_eq_bind, Option.bind_some, ne_eq, not_true_eq_false, if_false]
    rw [f1]
    simp only [Option.bind_some, not_true_eq_false, if_false]
    exact f2
  · intro hn hc
    rw [f5 hn hc, ← hmu]
    rfl
  · intro hn
    rw [f6 hn, ← hmu]
    rfl

/-- **C91**, an entry that cannot be added: when the table is full or has the key already, nothing
changes.

Missing: errors of the resources, after which the entry stays (`C91_refuted_atomic`). -/
theorem C91_add_error_partial {t : Tbl L V} {E : Nat → Option (K × V)} (hr : MRep W t.mu E) {k : K} (v : V)
    (hk : sp.okK k) (hkey : t.mu.sizeKey ≠ 0)
    (herr : HasSame sp (t.mu.tab E) k ∨ ¬ t.mu.numEntries < t.mu.size)
    (ttl : Option Nat) (rs : List Res) (now : Nat) :
    ∃ c, entryAdd t (some k) v ttl rs now = some (.unit c, 0, t) := by
  by_cases hs : HasSame sp (t.mu.tab E) k
  · have e := hr.add_dup k v now hk hkey hs
    exact ⟨.duplicateEntry, by simp [entryAdd, e, stOf]⟩
  · have e := hr.add_full k v now hk hkey hs (by rcases herr with h | h; exact absurd h hs; omega)
    exact ⟨.tableFull, by simp [entryAdd, e, stOf]⟩

/-- The table has this kind of resource. -/
def Has (t : Tbl L V) : Res → Prop
  | .counter _ => t.counters = true
  | .meter _ => t.meters = true

theorem mt_flags {t t' : Tbl L V} {c : St} {α : Type} {o : Option (α × MUnit L V Mtr)} {f : α → St} {b : Bool}
    (h : (if b then do let (c, mu) ← o; return (f c, { t with mu := mu }) else some (.disabled, t)) = some (c, t')) :
    (t'.ageing = t.ageing ∧ t'.counters = t.counters ∧ t'.meters = t.meters) ∧ (c = .success → b = true) := by
  cases b with
  | false =>
    simp only [Bool.false_eq_true, if_false, Option.some.injEq, Prod.mk.injEq] at h
    obtain ⟨rfl, rfl⟩ := h
    exact ⟨⟨rfl, rfl, rfl⟩, fun h => by cases h⟩
  | true =>
    simp only [if_true, Option.bind_eq_bind, Option.bind_eq_some_iff, Option.pure_def, Option.some.injEq,
      Prod.mk.injEq] at h
    obtain ⟨x, -, -, rfl⟩ := h
    exact ⟨⟨rfl, rfl, rfl⟩, fun _ => rfl⟩

theorem setAllRes_has (h : Nat) : ∀ (rs : List Res) {t t' : Tbl L V},
    setAllRes t h rs = some (.success, t') → ∀ r ∈ rs, Has t r
  | [], _, _, _, r, hr => by cases hr
  | r0 :: rs, t, t', e, r, hr => by
    simp only [setAllRes, Option.bind_eq_bind, Option.bind_eq_some_iff] at e
    obtain ⟨⟨c, t1⟩, e1, e2⟩ := e
    simp only at e2
    split at e2
    · rename_i hc
      subst hc
      have hf : (t1.counters = t.counters ∧ t1.meters = t.meters) ∧ Has t r0 := by
        cases r0 with
        | counter d => exact ⟨(mt_flags e1).1.2, (mt_flags e1).2 rfl⟩
        | meter s => exact ⟨(mt_flags e1).1.2, (mt_flags e1).2 rfl⟩
      rcases List.mem_cons.1 hr with rfl | hr
      · exact hf.2
      · have := setAllRes_has h rs e2 r hr
        cases r with
        | counter d => exact hf.1.1.symm.trans this
        | meter s => exact hf.1.2.symm.trans this
    · rename_i hc
      simp only [Option.some.injEq, Prod.mk.injEq] at e2
      exact absurd e2.1 hc

theorem setTtl_flags {t t' : Tbl L V} {h : Nat} {ttl : Option Nat} {now : Nat} {c : St}
    (e : setTtl t h ttl now = some (c, t')) :
    t'.counters = t.counters ∧ t'.meters = t.meters ∧ (c = .success → ttl.isSome = true → t.ageing = true) := by
  cases ttl with
  | none =>
    simp only [setTtl, Option.some.injEq, Prod.mk.injEq] at e
    rw [← e.2]
    exact ⟨rfl, rfl, fun _ h => by cases h⟩
  | some ns =>
    have := mt_flags e
    exact ⟨this.1.2.1, this.1.2.2, fun hc _ => this.2 hc⟩

/-- **C91**, no silent loss: when adding an entry with a timeout and resources succeeds, the table
supports all of them. -/
theorem C91_add_reports {t t' : Tbl L V} {key : Option K} {v : V} {ttl : Option Nat} {rs : List Res}
    {now h : Nat} (e : entryAdd t key v ttl rs now = some (.success, h, t')) :
    (ttl.isSome = true → t.ageing = true) ∧ ∀ r ∈ rs, Has t r := by
  simp only [entryAdd, Option.bind_eq_bind, Option.bind_eq_some_iff] at e
  obtain ⟨⟨⟨c, h0⟩, mu⟩, e1, e2⟩ := e
  simp only at e2
  split at e2
  · rename_i hc
    simp only [Option.some.injEq, Prod.mk.injEq] at e2
    cases c <;> simp [stOf] at hc e2
  · simp only [Option.bind_eq_some_iff] at e2
    obtain ⟨⟨c2, t2⟩, e3, e4⟩ := e2
    simp only at e4
    split at e4
    · rename_i hc
      simp only [Option.some.injEq, Prod.mk.injEq] at e4
      exact absurd e4.1 hc
    · rename_i hc
      simp only [ne_eq, Decidable.not_not] at hc
      subst hc
      simp only [Option.bind_eq_some_iff, Option.some.injEq, Prod.mk.injEq] at e4
      obtain ⟨⟨c3, t3⟩, e5, rfl, rfl, rfl⟩ := e4
      obtain ⟨f1, f2, f3⟩ := setTtl_flags e3
      refine ⟨f3 rfl, fun r hr => ?_⟩
      have := setAllRes_has _ _ e5 r hr
      cases r with
      | counter d => exact f1.symm.trans this
      | meter s => exact f2.symm.trans this

/-- The same for modifying an entry. -/
theorem C91_modify_reports {t t' : Tbl L V} {v : V} {ttl : Option Nat} {rs : List Res}
    {now h : Nat} (e : entryModify t h v ttl rs now = some (.success, t')) :
    (ttl.isSome = true → t.ageing = true) ∧ ∀ r ∈ rs, Has t r := by
  simp only [entryModify, Option.bind_eq_bind, Option.bind_eq_some_iff] at e
  obtain ⟨⟨c, mu⟩, e1, e2⟩ := e
  simp only at e2
  split at e2
  · rename_i hc
    simp only [Option.some.injEq, Prod.mk.injEq] at e2
    cases c <;> simp [stOf] at hc e2
  · simp only [Option.bind_eq_some_iff] at e2
    obtain ⟨⟨c2, t2⟩, e3, e4⟩ := e2
    simp only at e4
    split at e4
    · rename_i hc
      simp only [Option.some.injEq, Prod.mk.injEq] at e4
      exact absurd e4.1 hc
    · rename_i hc
      simp only [ne_eq, Decidable.not_not] at hc
      subst hc
      obtain ⟨f1, f2, f3⟩ := setTtl_flags e3
      refine ⟨f3 rfl, fun r hr => ?_⟩
      have := setAllRes_has _ _ e4 r hr
      cases r with
      | counter d => exact f1.symm.trans this
      | meter s => exact f2.symm.trans this

namespace Ex

/-- A table with two slots and one key byte; meters with two rates. -/
def tbl (ageing : Bool) : Tbl (TableKind.exact 1).str Nat :=
  { mu := MUnit.init _ Nat 2 1 (fun _ => Meter.fresh 0 true 2 0), ageing := ageing, counters := true, meters := true }

/-- The hypotheses of `C91_add` hold for it. -/
theorem C91_case : MRep (TableKind.laws (.exact 1)) (tbl true).mu (fun _ => none) ∧
    (TableKind.exact 1).spec.okK [7] ∧ (tbl true).mu.sizeKey ≠ 0 ∧
    ¬ HasSame (TableKind.exact 1).spec ((tbl true).mu.tab fun _ => none) [7] ∧
    (tbl true).mu.numEntries < (tbl true).mu.size ∧
    (∀ i, ((tbl true).mu.meters i).rates.length = 2) ∧
    Proper ⟨3000000, 10, 5000000, 20⟩ := by
  refine ⟨MRep.init _ 2 1 (by decide) _, by simp [TableKind.spec, exactSpec], by decide, ?_, by decide,
    fun i => rfl, Or.inr (by decide)⟩
  rintro ⟨h, k', v', h1, -⟩
  simp [MUnit.tab] at h1

/-- The results of a run: an entry with a timeout, counters and a meter. -/
theorem C91_case_run : (do
      let (c, h, t) ← entryAdd (tbl true) (some [7]) 42 (some 2000000000)
        [.counter ⟨some 100, none⟩, .meter ⟨3000000, 10, 5000000, 20⟩] 50
      let rd ← counterRead t h
      let rm ← meterRead t h
      let rt ← remaining t h 550
      let (c2, t) ← counterWrite t h ⟨none, some 9⟩
      let rd2 ← counterRead t h
      return ([c, c2, rd.1, rm.1, rt.1, rd2.1], [rd.2, rd2.2], rm.2, rt.2)) =
    some ([.success, .success, .success, .success, .success, .success],
      [some ⟨some 100, some 0⟩, some ⟨some 100, some 9⟩], some ⟨3000000, 10, 5000000, 20⟩, 1500000000) := by
  decide +kernel

/-- Without meters, an entry with counters and a meter is not reported as added. -/
theorem C91_case_reports : (entryAdd { tbl true with meters := false } (some [7]) 42 none
    [.counter ⟨some 100, none⟩, .meter ⟨3000000, 10, 5000000, 20⟩, .counter ⟨some 1, none⟩] 50).map (fun x => x.1) =
    some .disabled := by decide +kernel

/-! ## Where the code does not meet the property -/

/-- **C91 fails**: a rate of 249 units per second comes back as 248. -/
theorem C91_refuted_rate : (do
      let (_, h, t) ← entryAdd (tbl true) (some [7]) 42 none [] 50
      let (c, t) ← meterSet t h ⟨249, 10, 1000, 20⟩
      let rm ← meterRead t h
      return (c, rm)) = some (.success, (.success, some ⟨248, 10, 1000, 20⟩)) := by
  decide +kernel

/-- **C91 fails**: a timeout of five seconds shows less than a second at once. -/
theorem C91_refuted_ttl_long : (do
      let (c, h, t) ← entryAdd (tbl true) (some [7]) 42 (some 5000000000) [] 50
      let rt ← remaining t h 50
      return (c, rt)) = some (.success, (.success, 705032704)) := by
  decide +kernel

/-- **C91 fails**: with a timeout of half a millisecond the entry never becomes idle. -/
theorem C91_refuted_ttl_short : (do
      let (c, h, t) ← entryAdd (tbl true) (some [7]) 42 (some 500000) [] 50
      let rt ← remaining t h 1000000
      let l ← t.mu.sweepEntries 1000000
      return (c, rt, l)) = some (.success, (.success, 2 ^ 64 - 1), []) := by
  decide +kernel

/-- **C91 fails**: changing an entry and giving its packet counter sets the byte counter to zero,
unlike a write of the counter (`C91_counter`). -/
theorem C91_refuted_modify : (do
      let (_, h, t) ← entryAdd (tbl true) (some [7]) 42 none [.counter ⟨some 100, some 3⟩] 50
      let (c, t) ← entryModify t h 43 none [.counter ⟨none, some 9⟩] 60
      let rd ← counterRead t h
      return (c, rd)) = some (.success, (.success, some ⟨some 0, some 9⟩)) := by
  decide +kernel

/-- **C91 fails**: an entry with a timeout in a table without timeouts is refused, but it is in the
table: adding it again without the timeout says that it is there already, and packets match it. -/
theorem C91_refuted_atomic : (do
      let (c, _, t) ← entryAdd (tbl false) (some [7]) 42 (some 2000000000) [] 50
      let (c2, _, t) ← entryAdd t (some [7]) 42 none [] 50
      let (r, _) ← t.mu.lookup [7] 64 60
      return (c, c2, r)) = some (.disabled, .unit .duplicateEntry, .hit 0 42) := by
  decide +kernel

end Ex

end Bm.PiRes
