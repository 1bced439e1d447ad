import Verif.Spec.Ageing

/-!
# C28: ageing notifications
-/

namespace Bm.Ageing

open Spec.Ageing (St number Mentions)

/-- The monitor represents the state of the specification. -/
structure Rep (s : Monitor) (S : St) : Prop where
  entries : s.entries = []
  tmp : s.entriesTmp = []
  tables : s.tables = S.known.map fun t => ⟨t, S.last t⟩
  sorted : S.known.Pairwise (· < ·)
  sent : s.bufferId = S.sent
  unknown : ∀ t, t ∉ S.known → S.last t = []

theorem sweepTables_eq (e : Nat → List Nat) (ds : List TableData) (s : Monitor)
    (h1 : s.entries = []) (h2 : s.entriesTmp = []) :
    sweepTables s e ds =
      (ds.map (fun d => { d with prev := (e d.id).filter fun h => decide (h ∉ d.prev) }),
       { s with bufferId := s.bufferId + (number s.bufferId (ds.map fun d =>
          (d.id, (e d.id).filter fun h => decide (h ∉ d.prev)))).length },
       number s.bufferId (ds.map fun d => (d.id, (e d.id).filter fun h => decide (h ∉ d.prev)))) := by
  induction ds generalizing s with
  | nil => simp [sweepTables, number]
  | cons d ds ih =>
    have key : sweepTable s d (e d.id) =
        (let r := (e d.id).filter fun h => decide (h ∉ d.prev)
         ({ d with prev := r }, { s with bufferId := if r = [] then s.bufferId else s.bufferId + 1 },
          if r = [] then none else some ⟨s.bufferId, d.id, r.length, r⟩)) := by
      obtain ⟨tb, en, et, bi⟩ := s
      simp only at h1 h2
      subst h1 h2
      simp only [sweepTable, List.nil_append]
      by_cases he : e d.id = []
      · simp [he]
      · rw [if_neg he]
        by_cases hr : (e d.id).filter (fun h => decide (h ∉ d.prev)) = []
        · rw [if_pos hr]; simp only [hr, if_true]
        · rw [if_neg hr]; simp only [hr, if_false]
    simp only [sweepTables, key]
    by_cases hr : (e d.id).filter (fun h => decide (h ∉ d.prev)) = []
    · simp only [hr, if_true]
      rw [ih _ h1 h2]
      simp only [List.map_cons, number, hr, if_true, Option.toList_none, List.nil_append]
    · simp only [hr, if_false]
      rw [ih { s with bufferId := s.bufferId + 1 } h1 h2]
      simp only [List.map_cons, number, hr, if_false, List.length_cons, Option.toList_some,
        List.singleton_append]
      rw [show ∀ x : Nat, s.bufferId + 1 + x = s.bufferId + (x + 1) from fun x => by omega]

theorem insertTable_eq (l : Nat → List Nat) (id : Nat) (h : l id = []) (ks : List Nat)
    (hs : ks.Pairwise (· < ·)) :
    insertTable { id := id } (ks.map fun t => ⟨t, l t⟩)
      = (if id ∈ ks then ks else ks.orderedInsert (· ≤ ·) id).map fun t => ⟨t, l t⟩ := by
  induction ks with
  | nil => simp [insertTable, h]
  | cons k ks ih =>
    rw [List.pairwise_cons] at hs
    simp only [List.map_cons, insertTable]
    by_cases h1 : id < k
    · have hn : id ∉ k :: ks := by
        intro hm
        rcases List.mem_cons.1 hm with rfl | hm
        · omega
        · have := hs.1 id hm; omega
      rw [if_pos h1, if_neg hn, List.orderedInsert_cons, if_pos (by omega)]
      simp [h]
    · rw [if_neg h1]
      by_cases h2 : id = k
      · rw [if_pos h2, if_pos (by simp [h2])]; simp
      · rw [if_neg h2, ih hs.2]
        have : id ∈ k :: ks ↔ id ∈ ks := by simp [h2]
        simp only [this]
        by_cases h3 : id ∈ ks
        · simp [h3]
        · rw [if_neg h3, if_neg h3, List.orderedInsert_cons, if_neg (by omega)]
          simp

theorem Rep.exec {s : Monitor} {S : St} (h : Rep s S) (op : Op) :
    (exec s op).1 = (Spec.Ageing.step S op).1 ∧ Rep (exec s op).2 (Spec.Ageing.step S op).2 := by
  cases op with
  | sweep e =>
    have hm : s.tables.map (fun d => (d.id, (e d.id).filter fun h => decide (h ∉ d.prev)))
        = S.known.map fun t => (t, S.report e t) := by
      rw [h.tables, List.map_map]; rfl
    have ht : s.tables.map (fun d => ({ d with prev := (e d.id).filter fun h => decide (h ∉ d.prev) } :
        TableData)) = S.known.map fun t => ⟨t, S.report e t⟩ := by
      rw [h.tables, List.map_map]; rfl
    simp only [Ageing.exec, doSweep, sweepTables_eq e s.tables s h.entries h.tmp, hm, ht, h.sent,
      Spec.Ageing.step]
    refine ⟨trivial, h.entries, h.tmp, ?_, h.sorted, rfl, ?_⟩
    · refine List.map_congr_left fun t hk => ?_
      simp [hk]
    · intro t hk; exact if_neg hk
  | addTable id =>
    simp only [Ageing.exec, Spec.Ageing.step, addTable]
    by_cases hk : id ∈ S.known
    · refine ⟨trivial, ?_⟩
      rw [if_pos hk]
      refine ⟨h.entries, h.tmp, ?_, h.sorted, h.sent, h.unknown⟩
      show insertTable _ s.tables = _
      rw [h.tables]
      -- a known id changes nothing
      have hgen : ∀ ks : List Nat, ks.Pairwise (· < ·) → id ∈ ks →
          insertTable { id := id } (ks.map fun t => (⟨t, S.last t⟩ : TableData))
            = ks.map fun t => ⟨t, S.last t⟩ := by
        intro ks
        induction ks with
        | nil => intro _ hm; simp at hm
        | cons k ks ih =>
          intro hs hm
          rw [List.pairwise_cons] at hs
          simp only [List.map_cons, insertTable]
          rcases List.mem_cons.1 hm with rfl | hm
          · simp
          · have := hs.1 id hm
            rw [if_neg (by omega), if_neg (by omega), ih hs.2 hm]
      exact hgen _ h.sorted hk
    · refine ⟨trivial, ?_⟩
      rw [if_neg hk]
      refine ⟨h.entries, h.tmp, ?_, ?_, h.sent, ?_⟩
      · show insertTable _ s.tables = _
        rw [h.tables, insertTable_eq S.last id (h.unknown id hk) _ h.sorted, if_neg hk]
      · have hle : S.known.Pairwise (· ≤ ·) := h.sorted.imp fun hlt => Nat.le_of_lt hlt
        have h1 : (S.known.orderedInsert (· ≤ ·) id).Pairwise (· ≤ ·) := hle.orderedInsert id _
        have h2 : (S.known.orderedInsert (· ≤ ·) id).Nodup := by
          rw [(List.perm_orderedInsert (· ≤ ·) id S.known).nodup_iff, List.nodup_cons]
          exact ⟨hk, h.sorted.imp fun hlt => Nat.ne_of_lt hlt⟩
        exact (List.pairwise_and_iff.2 ⟨h1, h2⟩).imp fun hab => Nat.lt_of_le_of_ne hab.1 hab.2
      · intro t ht
        refine h.unknown t fun hm => ht ?_
        exact (List.perm_orderedInsert (· ≤ ·) id S.known).mem_iff.2 (List.mem_cons_of_mem _ hm)
  | reset =>
    refine ⟨rfl, rfl, rfl, ?_, h.sorted, rfl, fun _ _ => rfl⟩
    show s.tables.map _ = _
    rw [h.tables, List.map_map]; rfl

theorem Rep.run {s : Monitor} {S : St} (h : Rep s S) (ops : List Op) :
    (run s ops).1 = (Spec.Ageing.run S ops).1 ∧ Rep (run s ops).2 (Spec.Ageing.run S ops).2 := by
  induction ops generalizing s S with
  | nil => exact ⟨rfl, h⟩
  | cons op ops ih =>
    obtain ⟨h1, h2⟩ := h.exec op
    obtain ⟨h3, h4⟩ := ih h2
    exact ⟨by simp only [Ageing.run, Spec.Ageing.run, h1, h3], h4⟩

theorem Rep.init : Rep {} {} := ⟨rfl, rfl, rfl, List.Pairwise.nil, rfl, fun _ _ => rfl⟩

/-- Every history of the monitor is that of the specification: a sweep reports exactly the expired
entries that the previous sweep did not report, in one message per table, numbered in sequence. -/
theorem C28_conforms (ops : List Op) : (run {} ops).1 = (Spec.Ageing.run {} ops).1 :=
  (Rep.init.run ops).1

theorem mem_number {b : Nat} {l : List (Nat × List Nat)} {m : Msg} (hm : m ∈ number b l) :
    (m.table, m.handles) ∈ l ∧ m.handles ≠ [] ∧ m.num = m.handles.length := by
  induction l generalizing b with
  | nil => simp [number] at hm
  | cons p l ih =>
    obtain ⟨t, hs⟩ := p
    simp only [number] at hm
    split at hm
    · exact ⟨List.mem_cons_of_mem _ (ih hm).1, (ih hm).2⟩
    · rcases List.mem_cons.1 hm with rfl | hm
      · exact ⟨by simp, by assumption, rfl⟩
      · exact ⟨List.mem_cons_of_mem _ (ih hm).1, (ih hm).2⟩

theorem number_of_mem {b : Nat} {l : List (Nat × List Nat)} {t : Nat} {hs : List Nat}
    (hm : (t, hs) ∈ l) (hne : hs ≠ []) : ∃ m ∈ number b l, m.table = t ∧ m.handles = hs := by
  induction l generalizing b with
  | nil => simp at hm
  | cons p l ih =>
    obtain ⟨t', hs'⟩ := p
    simp only [number]
    rcases List.mem_cons.1 hm with he | hm
    · cases he
      rw [if_neg hne]
      exact ⟨_, List.mem_cons_self, rfl, rfl⟩
    · split
      · exact ih hm
      · obtain ⟨m, h1, h2⟩ := ih (b := b + 1) hm
        exact ⟨m, List.mem_cons_of_mem _ h1, h2⟩

theorem mentions_sweep (S : St) (e : Nat → List Nat) (t h : Nat) :
    Mentions (Spec.Ageing.step S (.sweep e)).1 t h ↔ t ∈ S.known ∧ h ∈ S.report e t := by
  simp only [Mentions, Spec.Ageing.step]
  constructor
  · rintro ⟨m, hm, rfl, hh⟩
    obtain ⟨h1, _⟩ := mem_number hm
    obtain ⟨t, ht, he⟩ := List.mem_map.1 h1
    simp only [Prod.mk.injEq] at he
    rw [← he.1]
    exact ⟨ht, he.2 ▸ hh⟩
  · rintro ⟨ht, hh⟩
    obtain ⟨m, h1, h2, h3⟩ := number_of_mem (b := S.sent)
      (List.mem_map.2 ⟨t, ht, rfl⟩ : (t, S.report e t) ∈ S.known.map fun t => (t, S.report e t))
      (fun hn => by rw [hn] at hh; simp at hh)
    exact ⟨m, h1, h2, by rw [h3]; exact hh⟩

/-- How many of the operations sent a message that mentions the entry. -/
def times (tr : List (List Msg)) (t h : Nat) : Nat := tr.countP fun ms => decide (Mentions ms t h)

theorem times_sweeps (t h : Nat) (es : List (Nat → List Nat)) (S : St) (ht : t ∈ S.known)
    (he : ∀ e ∈ es, h ∈ e t) :
    times (Spec.Ageing.run S (es.map .sweep)).1 t h
      = if h ∈ S.last t then es.length / 2 else (es.length + 1) / 2 := by
  induction es generalizing S with
  | nil => simp [times, Spec.Ageing.run]
  | cons e es ih =>
    have h1 : h ∈ e t := he e (by simp)
    simp only [List.map_cons, Spec.Ageing.run, times, List.countP_cons]
    have hk : t ∈ (Spec.Ageing.step S (.sweep e)).2.known := ht
    have := ih (Spec.Ageing.step S (.sweep e)).2 hk (fun e' h' => he e' (by simp [h']))
    simp only [times] at this
    rw [this]
    have hl : h ∈ (Spec.Ageing.step S (.sweep e)).2.last t ↔ h ∉ S.last t := by
      simp [Spec.Ageing.step, ht, St.report, h1]
    have hmn : decide (Mentions (Spec.Ageing.step S (.sweep e)).1 t h) = true ↔ h ∉ S.last t := by
      simp [mentions_sweep, ht, St.report, h1]
    simp only [hl, hmn, List.length_cons]
    by_cases hc : h ∈ S.last t
    · simp [hc]
    · simp only [hc, not_false_iff, if_true, if_false]
      omega

theorem run_append (s : Monitor) (a b : List Op) :
    (run s (a ++ b)).1 = (run s a).1 ++ (run (run s a).2 b).1 := by
  induction a generalizing s with
  | nil => rfl
  | cons op ops ih => simp only [List.cons_append, run, ih]

theorem spec_run_append (S : St) (a b : List Op) :
    Spec.Ageing.run S (a ++ b) = ((Spec.Ageing.run S a).1 ++ (Spec.Ageing.run (Spec.Ageing.run S a).2 b).1,
      (Spec.Ageing.run (Spec.Ageing.run S a).2 b).2) := by
  induction a generalizing S with
  | nil => rfl
  | cons op ops ih => simp only [List.cons_append, Spec.Ageing.run, ih]

/-- The table is monitored. -/
theorem known_of_added {ops : List Op} {t : Nat} (h : Op.addTable t ∈ ops) (S : St) :
    t ∈ (Spec.Ageing.run S ops).2.known := by
  have mono : ∀ (ops : List Op) (S : St), t ∈ S.known → t ∈ (Spec.Ageing.run S ops).2.known := by
    intro ops
    induction ops with
    | nil => intro S hS; exact hS
    | cons op ops ih =>
      intro S hS
      refine ih _ ?_
      cases op with
      | sweep e => exact hS
      | reset => exact hS
      | addTable id =>
        simp only [Spec.Ageing.step]
        split
        · exact hS
        · exact (List.perm_orderedInsert (· ≤ ·) id S.known).mem_iff.2 (List.mem_cons_of_mem _ hS)
  induction ops generalizing S with
  | nil => simp at h
  | cons op ops ih =>
    rcases List.mem_cons.1 h with rfl | h
    · refine mono ops _ ?_
      simp only [Spec.Ageing.step]
      split
      · assumption
      · exact (List.perm_orderedInsert (· ≤ ·) t S.known).mem_iff.2 (by simp)
    · exact ih h _

/-- **C28** (what the code does).  After any history in which the table was added, whose last
operation was a sweep in which the entry was not expired, let the entry be expired in the next `n`
sweeps: it is reported by `⌈n/2⌉` of them, beginning with the first. -/
theorem C28_count (ops : List Op) (t h : Nat) (hadd : Op.addTable t ∈ ops) (e0 : Nat → List Nat)
    (hfresh : h ∉ e0 t) (es : List (Nat → List Nat)) (he : ∀ e ∈ es, h ∈ e t) :
    times ((run {} (ops ++ [.sweep e0] ++ es.map .sweep)).1.drop (ops.length + 1)) t h
      = (es.length + 1) / 2 := by
  have hlen : ∀ (S : St) (l : List Op), (Spec.Ageing.run S l).1.length = l.length := by
    intro S l
    induction l generalizing S with
    | nil => rfl
    | cons o l ih => simp [Spec.Ageing.run, ih]
  rw [C28_conforms, spec_run_append]
  have : ops.length + 1 = (Spec.Ageing.run {} (ops ++ [.sweep e0])).1.length := by
    rw [hlen]; simp
  simp only [this, List.drop_left]
  rw [times_sweeps t h es _ ?_ he, if_neg]
  · rw [spec_run_append]
    simp only [Spec.Ageing.run, Spec.Ageing.step, St.report]
    split
    · simp [hfresh]
    · simp
  · rw [spec_run_append]
    exact known_of_added hadd {}

/-- **C28** (partial: an idle period that spans one or two sweeps, that is, the controller removes
the entry, or the entry is hit, before a third sweep).  The entry is reported exactly once. -/
theorem C28_once_partial (ops : List Op) (t h : Nat) (hadd : Op.addTable t ∈ ops)
    (e0 : Nat → List Nat) (hfresh : h ∉ e0 t) (es : List (Nat → List Nat))
    (he : ∀ e ∈ es, h ∈ e t) (hn : es.length = 1 ∨ es.length = 2) :
    times ((run {} (ops ++ [.sweep e0] ++ es.map .sweep)).1.drop (ops.length + 1)) t h = 1 := by
  rw [C28_count ops t h hadd e0 hfresh es he]
  rcases hn with hn | hn <;> rw [hn]

/-- Only expired entries of monitored tables are reported, and the number announced is the number of
handles. -/
theorem C28_only_expired (ops : List Op) (e : Nat → List Nat) (m : Msg)
    (hm : m ∈ (exec (run {} ops).2 (.sweep e)).1) :
    m.num = m.handles.length ∧ m.handles ≠ [] ∧ ∀ h ∈ m.handles, h ∈ e m.table := by
  rw [((Rep.init.run ops).2.exec (.sweep e)).1] at hm
  simp only [Spec.Ageing.step] at hm
  obtain ⟨h1, h2, h3⟩ := mem_number hm
  obtain ⟨t, _, he⟩ := List.mem_map.1 h1
  simp only [Prod.mk.injEq] at he
  obtain ⟨rfl, h4⟩ := he
  refine ⟨h3, h2, fun h hh => ?_⟩
  rw [← h4] at hh
  exact (List.mem_filter.1 hh).1

/-! ### A case meeting the hypotheses, and the negation of the full statement -/

example : (run {} [.addTable 3, .addTable 1, .sweep fun _ => [], .sweep fun t => if t = 3 then [5, 6] else [9],
      .sweep fun t => if t = 3 then [5, 7] else [9]]).1
    = [[], [], [], [⟨0, 1, 1, [9]⟩, ⟨1, 3, 2, [5, 6]⟩], [⟨2, 3, 1, [7]⟩]] := by decide +kernel

/-- The full statement of C28 is false: an entry that stays expired for three sweeps is reported
twice, because the second sweep forgets what the first one reported. -/
theorem C28_refuted :
    ¬ ∀ (ops : List Op) (t h : Nat) (e0 : Nat → List Nat) (es : List (Nat → List Nat)),
      Op.addTable t ∈ ops → h ∉ e0 t → (∀ e ∈ es, h ∈ e t) → es ≠ [] →
      times ((run {} (ops ++ [.sweep e0] ++ es.map .sweep)).1.drop (ops.length + 1)) t h = 1 := by
  intro hall
  have := hall [.addTable 1] 1 5 (fun _ => []) [fun _ => [5], fun _ => [5], fun _ => [5]] (by simp)
    (by simp) (by simp) (by simp)
  rw [C28_count [.addTable 1] 1 5 (by simp) (fun _ => []) (by simp) _ (by simp)] at this
  simp at this

end Bm.Ageing
